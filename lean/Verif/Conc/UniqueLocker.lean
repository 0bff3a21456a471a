import Verif.Own.Spec

/-!
# `UniqueLocker` — src/Os/Threads/Utils.cpp 73-205, include/FlameIDE/Os/Threads/Utils.hpp 52-115

Lockers `i`, locks `l`.  The four callbacks and `data` are set and cleared together, so they are one optional lock;
calling a null callback is undefined behaviour, and so is unlocking a lock nobody holds (pthread spin locks and mutexes).
Locking a lock that is held waits for ever unless somebody else releases it: `loop`.

Ghost: `held l` records who holds lock `l` — the locker through which it was locked, or somebody outside.  Moving a locker
moves what it holds.  `log` records the releases: by whom, which lock, whose it was.
-/

namespace Flame.Conc.UniqueLocker
open Flame.Own

inductive Owner where
  | locker (i : Nat)
  | outside
  deriving DecidableEq

/-- Utils.hpp 109-116. -/
structure Ob where
  data : Option Nat
  locked : Bool
  deriving DecidableEq

structure St where
  objs : Nat → Option Ob
  held : Nat → Option Owner
  log : List (Nat × Nat × Owner)

def init : St := { objs := fun _ => none, held := fun _ => none, log := [] }

inductive Op where
  | make (i l : Nat)
  | makeLock (i l : Nat)
  | makeTryLock (i l : Nat)
  | makeUnlock (i l : Nat)
  | lock (i : Nat)
  | tryLock (i : Nat)
  | unlock (i : Nat)
  | moveCtor (i j : Nat)
  | moveAssign (i j : Nat)
  | copyCtor (i j : Nat)
  | copyAssign (i j : Nat)
  | destroy (i : Nat)
  | outsideLock (l : Nat)
  | outsideUnlock (l : Nat)

/-- Utils.cpp 186-191: `lock`. -/
def lock (s : St) (i : Nat) : Res St := match s.objs i with
  | none => .ub
  | some x => match x.data with
    | none => .ub
    | some l => match s.held l with
      | some _ => .loop
      | none => .ok { s with held := upd s.held l (some (.locker i)), objs := upd s.objs i (some { x with locked := true }) }

/-- Utils.cpp 193-198: `tryLock`. -/
def tryLock (s : St) (i : Nat) : Res St := match s.objs i with
  | none => .ub
  | some x => if x.locked then .ok s else match x.data with
    | none => .ub
    | some l => match s.held l with
      | some _ => .ok s
      | none => .ok { s with held := upd s.held l (some (.locker i)), objs := upd s.objs i (some { x with locked := true }) }

/-- Utils.cpp 200-205: `unlock`, unconditional. -/
def unlock (s : St) (i : Nat) : Res St := match s.objs i with
  | none => .ub
  | some x => match x.data with
    | none => .ub
    | some l => match s.held l with
      | none => .ub
      | some o => .ok { objs := upd s.objs i (some { x with locked := false }), held := upd s.held l none,
                        log := s.log ++ [(i, l, o)] }

/-- What locker `j` holds passes to locker `i`. -/
def handOver (held : Nat → Option Owner) (i j : Nat) : Nat → Option Owner :=
  fun l => if held l = some (.locker j) then some (.locker i) else held l

/-- Utils.cpp 162-179: move `operator=`; the last assignment (176) clears the flag of the *target*.  Applied to an existing
object `i`; the move constructor (75-78) calls it on a fresh one. -/
def moveAssign (s : St) (i j : Nat) : Res St := match s.objs i, s.objs j with
  | some _, some y =>
    -- 164-169: copy (`locked` included), 171-175: clear the source's callbacks and data, 176: `locked = false`
    let objs := upd s.objs i (some { data := y.data, locked := y.locked })
    let objs := upd objs j ((objs j).map fun z => { z with data := none })
    let objs := upd objs i ((objs i).map fun z => { z with locked := false })
    .ok { s with objs := objs, held := handOver s.held i j }
  | _, _ => .ub

def step (s : St) : Op → Res St
  -- 80-86, 106-112, 132-138
  | .make i l => .ok { s with objs := upd s.objs i (some { data := some l, locked := false }) }
  -- 88-92, 114-118, 140-144
  | .makeLock i l => lock { s with objs := upd s.objs i (some { data := some l, locked := false }) } i
  -- 94-98, 120-124, 146-150
  | .makeTryLock i l => tryLock { s with objs := upd s.objs i (some { data := some l, locked := false }) } i
  -- 100-104, 126-130, 152-156
  | .makeUnlock i l => unlock { s with objs := upd s.objs i (some { data := some l, locked := false }) } i
  | .lock i => lock s i
  | .tryLock i => tryLock s i
  | .unlock i => unlock s i
  | .moveCtor i j => moveAssign { s with objs := upd s.objs i (some { data := none, locked := false }) } i j
  | .moveAssign i j => moveAssign s i j
  -- Utils.hpp 66, 86: defaulted copies
  | .copyCtor i j => .ok { s with objs := upd s.objs i (s.objs j) }
  | .copyAssign i j => .ok { s with objs := upd s.objs i (s.objs j) }
  -- Utils.cpp 156-160
  | .destroy i => match s.objs i with
    | none => .ub
    | some x => if x.locked then
        match unlock s i with
        | .ok s' => .ok { s' with objs := upd s'.objs i none }
        | .ub => .ub
        | .loop => .loop
      else .ok { s with objs := upd s.objs i none }
  | .outsideLock l => match s.held l with
    | none => .ok { s with held := upd s.held l (some .outside) }
    | some _ => .loop
  | .outsideUnlock l => .ok { s with held := upd s.held l none }

/-- The language and the protocol of the lock: objects are created once and used while they exist; others release only what
they hold. -/
def pre (s : St) : Op → Prop
  | .make i _ | .makeLock i _ | .makeTryLock i _ | .makeUnlock i _ => s.objs i = none
  | .lock i | .tryLock i | .unlock i | .destroy i => s.objs i ≠ none
  | .moveCtor i j | .copyCtor i j => s.objs i = none ∧ s.objs j ≠ none
  | .moveAssign i j | .copyAssign i j => s.objs i ≠ none ∧ s.objs j ≠ none
  | .outsideLock _ => True
  | .outsideUnlock l => s.held l = some .outside

/-- The restrictions under which the class works: no `UNLOCK` construction, no explicit `unlock` of a locker that does not hold,
nothing through a moved-from locker, and a locker is moved, copied or assigned to only while it does not hold (copying it to itself changes nothing). -/
def careful (s : St) : Op → Prop
  | .makeUnlock _ _ => False
  | .lock i | .tryLock i => (s.objs i).bind (·.data) ≠ none
  | .unlock i => (s.objs i).map (·.locked) = some true
  | .moveCtor _ j | .copyCtor _ j => (s.objs j).map (·.locked) = some false
  | .moveAssign i j => (s.objs i).map (·.locked) = some false ∧ (s.objs j).map (·.locked) = some false
  | .copyAssign i j => i = j ∨ ((s.objs i).map (·.locked) = some false ∧ (s.objs j).map (·.locked) = some false)
  | _ => True

instance : ∀ s o, Decidable (pre s o) := fun s o => by cases o <;> simp only [pre] <;> infer_instance
instance : ∀ s o, Decidable (careful s o) := fun s o => by cases o <;> simp only [careful] <;> infer_instance

end Flame.Conc.UniqueLocker
