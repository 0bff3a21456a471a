import Verif.Basic

/-!
# Model of `List<T>` (include/FlameIDE/Templates/List.hpp)

Pointer-level model.  A memory maps pointers to nodes; every list object `o` owns two sentinel nodes (`postFirst`,
`postLast`) and two pointers `head`, `tail`.  Loading through a null or freed pointer is `ub`.  Loops take fuel and give
`loop` when it runs out.

Simplifications: allocation never fails and never reuses an address; values are opaque.
-/

namespace Flame.LL

/-- Node pointers: null, `&postFirst` and `&postLast` of list object `o`, heap node. -/
inductive Ptr where
  | null
  | first (o : Nat)
  | last (o : Nat)
  | node (n : Nat)
  deriving DecidableEq, Repr

/-- List.hpp 45-67 (`Node`); sentinels carry no meaningful value. -/
structure Node (α : Type) where
  prev : Ptr
  next : Ptr
  val : Option α
  deriving Repr, DecidableEq

/-- Memory: all nodes, and the `head`/`tail` members of every list object (List.hpp 326-330). -/
structure Mem (α : Type) where
  cell : Ptr → Option (Node α)
  head : Nat → Ptr
  tail : Nat → Ptr
  fresh : Nat

variable {α : Type}

/-- Dereference. -/
def load (m : Mem α) (p : Ptr) : Res (Node α) :=
  match m.cell p with
  | some c => .ok c
  | none => .ub

def store (m : Mem α) (p : Ptr) (c : Node α) : Mem α := { m with cell := fun q => if q = p then some c else m.cell q }

/-- `p->next = q`. -/
def setNext (m : Mem α) (p q : Ptr) : Res (Mem α) :=
  match m.cell p with
  | some c => .ok (store m p { c with next := q })
  | none => .ub

/-- `p->previous = q`. -/
def setPrev (m : Mem α) (p q : Ptr) : Res (Mem α) :=
  match m.cell p with
  | some c => .ok (store m p { c with prev := q })
  | none => .ub

def setHead (m : Mem α) (o : Nat) (p : Ptr) : Mem α := { m with head := fun i => if i = o then p else m.head i }
def setTail (m : Mem α) (o : Nat) (p : Ptr) : Mem α := { m with tail := fun i => if i = o then p else m.tail i }

/-- `allocator.construct(object)`: List.hpp 342-352 (`previous = next = nullptr`). -/
def alloc (m : Mem α) (x : α) : Mem α :=
  { m with cell := fun q => if q = .node m.fresh then some ⟨.null, .null, some x⟩ else m.cell q, fresh := m.fresh + 1 }

/-- `allocator.destroy(p)`: only a live heap node may be destroyed. -/
def free (m : Mem α) (p : Ptr) : Res (Mem α) :=
  match p with
  | .node n =>
    match m.cell (.node n) with
    | some _ => .ok { m with cell := fun q => if q = p then none else m.cell q }
    | none => .ub
  | _ => .ub

/-- List.hpp 976-981. -/
def updateHeadLinks (m : Mem α) (o : Nat) : Res (Mem α) := do
  let m ← setNext m (.first o) (m.head o)
  setPrev m (m.head o) (.first o)

/-- List.hpp 983-988. -/
def updateTailLinks (m : Mem α) (o : Nat) : Res (Mem α) := do
  let m ← setPrev m (.last o) (m.tail o)
  setNext m (m.tail o) (.last o)

/-- List.hpp 990-995. -/
def updateLinks (m : Mem α) (o : Nat) : Res (Mem α) := do
  let m ← updateHeadLinks m o
  updateTailLinks m o

/-- List.hpp 997-1005. -/
def cleanLinks (m : Mem α) (o : Nat) : Res (Mem α) := do
  let m ← setPrev m (.first o) .null
  let m ← setNext m (.first o) .null
  let m ← setPrev m (.last o) .null
  setNext m (.last o) .null

/-- List.hpp 359-364: construction of the list object `o` (sentinels are value-initialised: null links). -/
def construct (m : Mem α) (o : Nat) : Mem α :=
  setTail (setHead (store (store m (.first o) ⟨.null, .null, none⟩) (.last o) ⟨.null, .null, none⟩) o .null) o .null

/-- The memory with no nodes and no list objects. -/
def emptyMem : Mem α := ⟨fun _ => none, fun _ => .null, fun _ => .null, 0⟩

/-- List.hpp 614-630, 632-648, 650-666 (pushBack / emplaceBack). -/
def pushBack (m : Mem α) (o : Nat) (x : α) : Res (Mem α) := do
  let p := Ptr.node m.fresh
  let m := alloc m x
  if m.head o ≠ .null then
    let m ← setPrev m p (m.tail o)
    let m ← setNext m (m.tail o) p
    let t ← load m (m.tail o)
    let m := setTail m o t.next
    updateTailLinks m o
  else
    updateLinks (setTail (setHead m o p) o p) o

/-- List.hpp 668-684, 686-702, 704-720 (pushFront / emplaceFront). -/
def pushFront (m : Mem α) (o : Nat) (x : α) : Res (Mem α) := do
  let p := Ptr.node m.fresh
  let m := alloc m x
  if m.head o ≠ .null then
    let m ← setPrev m (m.head o) p
    let m ← setNext m p (m.head o)
    let h ← load m (m.head o)
    let m := setHead m o h.prev
    updateHeadLinks m o
  else
    updateLinks (setTail (setHead m o p) o p) o

/-- The loop of `size()`: List.hpp 511-518. -/
def sizeLoop (m : Mem α) (o : Nat) : Nat → Ptr → Res Nat
  | 0, _ => .loop
  | f + 1, p =>
    if p = .last o then .ok 0
    else do
      let c ← load m p
      let r ← sizeLoop m o f c.next
      .ok (r + 1)

def size (fuel : Nat) (m : Mem α) (o : Nat) : Res Nat := sizeLoop m o fuel (m.head o)

/-- Forward range-for: List.hpp 98-102 (`++`), 131-134 (`*`), 542-546 (`begin`), 578-582 (`end`). -/
def walk (m : Mem α) (o : Nat) : Nat → Ptr → Res (List α)
  | 0, _ => .loop
  | f + 1, p =>
    if p = .last o then .ok []
    else do
      let c ← load m p
      match c.val with
      | some a =>
        let r ← walk m o f c.next
        .ok (a :: r)
      | none => .ub

def toList (fuel : Nat) (m : Mem α) (o : Nat) : Res (List α) := walk m o fuel (m.head o)

/-- Backward range-for: List.hpp 560-564 (`rbegin`), 596-600 (`rend`), 115-119 (`--`). -/
def walkBack (m : Mem α) (o : Nat) : Nat → Ptr → Res (List α)
  | 0, _ => .loop
  | f + 1, p =>
    if p = .first o then .ok []
    else do
      let c ← load m p
      match c.val with
      | some a =>
        let r ← walkBack m o f c.prev
        .ok (a :: r)
      | none => .ub

def toListReverse (fuel : Nat) (m : Mem α) (o : Nat) : Res (List α) := walkBack m o fuel (m.tail o)

/-- `begin()` advanced `i` times. -/
def iterAt (m : Mem α) (o : Nat) : Nat → Res Ptr
  | 0 => .ok (m.head o)
  | i + 1 => do
    let p ← iterAt m o i
    let c ← load m p
    .ok c.next

/-- List.hpp 722-750, 752-780, 844-871 (insert / emplace). -/
def insert (fuel : Nat) (m : Mem α) (o : Nat) (it : Ptr) (x : α) : Res (Mem α) := do
  let s ← size fuel m o
  if s = 0 then
    let p := Ptr.node m.fresh
    let m := alloc m x
    .ok (setTail (setHead m o p) o p)
  else if it = m.head o then pushFront m o x
  else if it = .last o then pushBack m o x
  else
    let p := Ptr.node m.fresh
    let m := alloc m x
    let c ← load m it
    let m ← setNext m c.prev p
    let m ← setPrev m p c.prev
    let m ← setPrev m it p
    setNext m p it

/-- The loop of List.hpp 793-810 after the first node: append nodes behind `pt`; returns memory and `pointerTail`. -/
def chainLoop (m : Mem α) (pt : Ptr) : List α → Res (Mem α × Ptr)
  | [] => .ok (m, pt)
  | x :: xs => do
    let p := Ptr.node m.fresh
    let m := alloc m x
    let m ← setNext m pt p
    let m ← setPrev m p pt
    chainLoop m p xs

/-- List.hpp 811-840: link the finished chain `ph … pt` in at `it`. -/
def splice (fuel : Nat) (m : Mem α) (o : Nat) (it ph pt : Ptr) : Res (Mem α) := do
  let s ← size fuel m o
  if s = 0 then updateLinks (setTail (setHead m o ph) o pt) o
  else if it = m.head o then
    let m ← setNext m pt (m.head o)
    let m ← setPrev m (m.head o) pt
    updateHeadLinks (setHead m o ph) o
  else if it = .last o then
    let m ← setPrev m ph (m.tail o)
    let m ← setNext m (m.tail o) ph
    updateTailLinks (setTail m o pt) o
  else
    let c ← load m it
    let m ← setNext m c.prev ph
    let m ← setPrev m ph c.prev
    let m ← setPrev m it pt
    setNext m pt it

/-- List.hpp 782-842 for a range that lives outside every list. -/
def insertRange (fuel : Nat) (m : Mem α) (o : Nat) (it : Ptr) (xs : List α) : Res (Mem α) :=
  match xs with
  | [] => .ok m
  | x :: xs => do
    let ph := Ptr.node m.fresh
    let (m, pt) ← chainLoop (alloc m x) ph xs
    splice fuel m o it ph pt

/-- SimpleAlgorithms.hpp 99-106 over list iterators (List.hpp 98-102 `++`): the walk from `p` to `e`. -/
def countNodes (m : Mem α) (e : Ptr) : Nat → Ptr → Res Nat
  | 0, _ => .loop
  | f + 1, p =>
    if p = e then .ok 0
    else do
      let c ← load m p
      let n ← countNodes m e f c.next
      .ok (n + 1)

/-- `*it`: the object of a node. -/
def deref (m : Mem α) (p : Ptr) : Res α := do
  let c ← load m p
  match c.val with
  | some a => .ok a
  | none => .ub

/-- List.hpp 793-810 after the first node, over a range of list nodes: every round reads the object at `p`, appends a node
behind `pt` and only then steps `p` forward, in the memory as changed so far. -/
def chainNodes (e : Ptr) : Nat → Mem α → Ptr → Ptr → Res (Mem α × Ptr)
  | 0, _, _, _ => .loop
  | f + 1, m, pt, p =>
    if p = e then .ok (m, pt)
    else do
      let x ← deref m p
      let q := Ptr.node m.fresh
      let m := alloc m x
      let m ← setNext m pt q
      let m ← setPrev m q pt
      let c ← load m p
      chainNodes e f m q c.next

/-- List.hpp 782-842 for a range `[b, e)` of list nodes, possibly nodes of the very list that grows. -/
def insertNodes (fuel : Nat) (m : Mem α) (o : Nat) (it b e : Ptr) : Res (Mem α) := do
  let n ← countNodes m e fuel b
  if n = 0 then .ok m
  else do
    let x ← deref m b
    let ph := Ptr.node m.fresh
    let m := alloc m x
    let c ← load m b
    let (m, pt) ← chainNodes e fuel m ph c.next
    splice fuel m o it ph pt

/-- List.hpp 614-631, 668-685 (push), 722-750 (insert) with the object of a node as argument: the new node is constructed
from it before any link changes. -/
def pushBackNode (m : Mem α) (o : Nat) (p : Ptr) : Res (Mem α) := do
  let x ← deref m p
  pushBack m o x

def pushFrontNode (m : Mem α) (o : Nat) (p : Ptr) : Res (Mem α) := do
  let x ← deref m p
  pushFront m o x

def insertNode (fuel : Nat) (m : Mem α) (o : Nat) (it p : Ptr) : Res (Mem α) := do
  let x ← deref m p
  insert fuel m o it x

/-- List.hpp 873-886. -/
def popBack (m : Mem α) (o : Nat) : Res (Mem α) := do
  let t ← load m (m.tail o)
  if t.prev ≠ .null then
    let p := m.tail o
    let m := setTail m o t.prev
    let m ← setNext m (m.tail o) .null
    let m ← free m p
    updateTailLinks m o
  else .ok m

/-- List.hpp 888-901. -/
def popFront (m : Mem α) (o : Nat) : Res (Mem α) := do
  let h ← load m (m.head o)
  if h.next ≠ .null then
    let p := m.head o
    let m := setHead m o h.next
    let m ← setPrev m (m.head o) .null
    let m ← free m p
    updateHeadLinks m o
  else .ok m

/-- List.hpp 903-925. -/
def erase (m : Mem α) (o : Nat) (it : Ptr) : Res (Mem α) :=
  if it = m.head o then popFront m o
  else if it = .last o then popBack m o
  else do
    let c ← load m it
    let m ← setNext m c.prev c.next
    let m ← setPrev m c.next c.prev
    free m it

/-- Loop of List.hpp 523-529: destroy nodes from `p` until null or `&postLast`. -/
def cleanLoop (m : Mem α) (o : Nat) : Nat → Ptr → Res (Mem α)
  | 0, _ => .loop
  | f + 1, p =>
    if p = .null ∨ p = .last o then .ok m
    else do
      let c ← load m p
      let m ← free m p
      cleanLoop m o f c.next

/-- List.hpp 520-533 (also the destructor 402-406). -/
def clean (fuel : Nat) (m : Mem α) (o : Nat) : Res (Mem α) := do
  let m ← cleanLoop m o fuel (m.head o)
  cleanLinks (setTail (setHead m o .null) o .null) o

/-- `while (head != e) popFront();` List.hpp 943-946. -/
def popFrontUntil (o : Nat) (e : Ptr) : Nat → Mem α → Res (Mem α)
  | 0, _ => .loop
  | f + 1, m =>
    if m.head o = e then .ok m
    else do
      let m ← popFront m o
      popFrontUntil o e f m

/-- `while (tail != b) popBack();` List.hpp 951-954. -/
def popBackUntil (o : Nat) (b : Ptr) : Nat → Mem α → Res (Mem α)
  | 0, _ => .loop
  | f + 1, m =>
    if m.tail o = b then .ok m
    else do
      let m ← popBack m o
      popBackUntil o b f m

/-- Loop of List.hpp 964-970: destroy nodes from `p` up to `e`. -/
def freeUntil (e : Ptr) : Nat → Mem α → Ptr → Res (Mem α)
  | 0, _, _ => .loop
  | f + 1, m, p =>
    if p = e then .ok m
    else do
      let c ← load m p
      let m ← free m p
      freeUntil e f m c.next

/-- List.hpp 927-974. -/
def eraseRange (fuel : Nat) (m : Mem α) (o : Nat) (b e : Ptr) : Res (Mem α) :=
  if b = m.head o ∧ e = .last o then clean fuel m o
  else if b = m.head o then popFrontUntil o e fuel m
  else if e = .last o then do
    let m ← popBackUntil o b fuel m
    popBack m o
  else do
    let c ← load m b
    let m ← setNext m c.prev e
    let m ← setPrev m e c.prev
    freeUntil e fuel m b

/-- Copy loop of List.hpp 371-374: walk the source object `s` from `p`, appending every element to `d`. -/
def copyLoop (s d : Nat) : Nat → Mem α → Ptr → Res (Mem α)
  | 0, _, _ => .loop
  | f + 1, m, p =>
    if p = .last s then .ok m
    else do
      let c ← load m p
      match c.val with
      | some a =>
        let m ← pushBack m d a
        -- the iterator is advanced after the body: `next` is read from the memory after the push
        let c' ← load m p
        copyLoop s d f m c'.next
      | none => .ub

/-- List.hpp 366-377: copy constructor of object `d` from `s`. -/
def copyCtor (fuel : Nat) (m : Mem α) (d s : Nat) : Res (Mem α) := do
  let m := construct m d
  let n ← size fuel m s
  if n ≠ 0 then
    let m ← copyLoop s d fuel m (m.head s)
    updateHeadLinks m d
  else .ok m

/-- Loop of List.hpp 395-398. -/
def pushAll (d : Nat) : Mem α → List α → Res (Mem α)
  | m, [] => .ok m
  | m, x :: xs => do
    let m ← pushBack m d x
    pushAll d m xs

/-- List.hpp 392-400: construction of object `d` from an initializer list with the elements `xs`. -/
def ofInit (m : Mem α) (d : Nat) (xs : List α) : Res (Mem α) := do
  let m ← pushAll d (construct m d) xs
  updateHeadLinks m d

/-- List.hpp 475-480: `operator+=` with a range.  (`operator-=` with reverse iterators, 489-494 and 503-509, cannot be
instantiated: `internalData` of a bidirectional reverse iterator is private, Iterator/ReverseIterator.hpp 74-75.) -/
def addRange (fuel : Nat) (m : Mem α) (o : Nat) (xs : List α) : Res (Mem α) := insertRange fuel m o (.last o) xs

/-- List.hpp 379-390: move constructor of object `d` from `s`. -/
def moveCtor (m : Mem α) (d s : Nat) : Res (Mem α) := do
  let m := construct m d
  let m := setTail (setHead m d (m.head s)) d (m.tail s)
  let m := setTail (setHead m s .null) s .null
  let m ← cleanLinks m s
  updateLinks m d

/-- List.hpp 535-540: `clone`; the local copy is moved into the result, object `d`, and then destroyed. -/
def clone (fuel : Nat) (m : Mem α) (d t s : Nat) : Res (Mem α) := do
  let m ← copyCtor fuel m t s
  let m ← moveCtor m d t
  clean fuel m t

/-- List.hpp 446-459: move assignment. -/
def moveAssign (fuel : Nat) (m : Mem α) (d s : Nat) : Res (Mem α) := do
  let m ← clean fuel m d
  let m := setTail (setHead m d (m.head s)) d (m.tail s)
  let m ← updateLinks m d
  let m := setTail (setHead m s .null) s .null
  cleanLinks m s

end Flame.LL
