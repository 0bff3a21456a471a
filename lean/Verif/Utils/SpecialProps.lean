import Verif.Utils.Special

/-!
# C159: the creation prohibitions, and which owners can be copied
-/

namespace Flame
open Special

namespace SpecialLemmas

theorem mem_avails {c : Cls} : ∀ {cs : List Cls}, c ∈ cs → avail c ∈ avails cs
  | _ :: _, h => by
    simp only [avails]
    rcases List.mem_cons.1 h with rfl | h
    · exact List.mem_cons_self
    · exact List.mem_cons_of_mem _ (mem_avails h)

/-- `c` is one of `ps` or has such a class among its bases, members, their bases and members and so on, where every class on the way leaves its
copy and move operations to the compiler or deletes them. -/
inductive Has (ps : Cls → Prop) : Cls → Prop where
  | here {c} : ps c → Has ps c
  | sub {c b} : c.decls.copy ≠ .user → c.decls.move ≠ .user → c.decls.copyAssign ≠ .user → c.decls.moveAssign ≠ .user →
      b ∈ c.bases ++ c.members → Has ps b → Has ps c

/-- The same for the default constructor. -/
inductive HasD (ps : Cls → Prop) : Cls → Prop where
  | here {c} : ps c → HasD ps c
  | sub {c b} : c.decls.ctor ≠ .user → b ∈ c.bases ++ c.members → HasD ps b → HasD ps c

theorem all_false {subs : List Avail} {f : Avail → Bool} {a : Avail} (h : a ∈ subs) (hf : f a = false) : subs.all f = false := by
  rw [Bool.eq_false_iff]
  intro e
  rw [List.all_eq_true] at e
  rw [e a h] at hf
  cases hf

theorem canCopy_false {own : Decl} {m : Bool} (h : own ≠ .user) : canCopy own m false = false := by
  cases own <;> simp [canCopy] at h ⊢

theorem seenMove_false {own : Decl} {o : Bool} (h : own ≠ .user) : (seenMove own o false).getD false = false := by
  cases own <;> simp [seenMove] at h ⊢

theorem avail_eq (c : Cls) : avail c = combine c.decls (avails (c.bases ++ c.members)) := by
  obtain ⟨d, k, b, m⟩ := c
  have : ∀ b m : List Cls, avails (b ++ m) = avails b ++ avails m := by
    intro b m
    induction b with
    | nil => simp [avails]
    | cons a b ih => simp [avails, ih]
  simp [avail, Cls.decls, Cls.bases, Cls.members, this]

end SpecialLemmas
open SpecialLemmas

/-- **C159, prohibition.** Whatever has `NonCopy` or `NonMove` (or `NonAssignable`, `NonCreational`) in it, at any depth, and gives no copy or move operation a body of its
own, can neither be copied nor moved, by construction or assignment. -/
theorem C159_prohibited {c : Cls} (h : Has (fun c => c = NonCopy ∨ c = NonMove) c) :
    (avail c).copy = false ∧ (avail c).move = false ∧ (avail c).copyAssign = false ∧ (avail c).moveAssign = false := by
  induction h with
  | here h => rcases h with rfl | rfl <;> decide
  | @sub c b h1 h2 h3 h4 hb _ ih =>
    have hm := mem_avails hb
    rw [avail_eq]
    obtain ⟨i1, i2, i3, i4⟩ := ih
    simp only [combine, all_false (f := (·.copy)) hm i1, all_false (f := (·.move)) hm i2, all_false (f := (·.copyAssign)) hm i3,
      all_false (f := (·.moveAssign)) hm i4, canCopy_false h1, canCopy_false h3, seenMove_false h2, seenMove_false h4, and_self]

/-- **C159, prohibition.** Whatever has `NonDefault` (or `NonCreational`) in it, at any depth, and gives no default constructor a body, cannot be made by `T t;`. -/
theorem C159_nondefault {c : Cls} (h : HasD (fun c => c = NonDefault) c) : (avail c).ctor = false := by
  induction h with
  | here h => subst h; decide
  | @sub c b h1 hb _ ih =>
    rw [avail_eq]
    simp only [combine, all_false (f := (·.ctor)) (mem_avails hb) ih]
    cases hc : c.decls.ctor <;> simp_all [canCtor]

/-- **C159, no more than that.** A base `NonDefault` takes no copy or move operation away, and a base `NonCopy`, `NonMove` or `NonAssignable` no default constructor. -/
theorem C159_untouched (d : Decls) (k : Bool) (bases members : List Cls) :
    (let a := avail (.mk d k (NonDefault :: bases) members); let b := avail (.mk d k bases members)
      a.copy = b.copy ∧ a.move = b.move ∧ a.copyAssign = b.copyAssign ∧ a.moveAssign = b.moveAssign) ∧
    ∀ p, p = NonCopy ∨ p = NonMove ∨ p = NonAssignable →
      (avail (.mk d k (p :: bases) members)).ctor = (avail (.mk d k bases members)).ctor := by
  have h0 : avail NonDefault = ⟨false, true, true, true, true⟩ := by decide
  refine ⟨by simp [avail, avails, combine, h0], fun p hp => ?_⟩
  have hc : (avail p).ctor = true := by rcases hp with rfl | rfl | rfl <;> decide
  simp [avail, avails, combine, hc]

/-- **C159 fails: names.** `NonCopy` prohibits moving, `NonMove` prohibits copying: the three prohibitions are one. -/
theorem C159_same_violated : avail NonCopy = avail NonMove ∧ avail NonMove = avail NonAssignable ∧
    avail NonCopy = ⟨true, false, false, false, false⟩ := by decide

/-- **C159 fails: braces.** `NonDefault` is an aggregate, so `NonDefault{}` makes one without any constructor; so it does as a member of any aggregate whose other members
can be made so. -/
theorem C159_braces_violated : (avail NonDefault).ctor = false ∧ canBraces NonDefault = true ∧
    ∀ ms : List Cls, allBraces ms = true → canBraces (.mk {} false [] (NonDefault :: ms)) = true ∧
      (avail (.mk {} false [] (NonDefault :: ms))).ctor = false := by
  refine ⟨by decide, by decide, fun ms h => ⟨?_, ?_⟩⟩
  · have : canBraces NonDefault = true := by decide
    simp [canBraces, aggregate, allBraces, this, h]
  · exact C159_nondefault (.sub (by simp [Cls.decls]) (b := NonDefault) (by simp [Cls.bases, Cls.members]) (.here rfl))

/-- `NonCreational` and what is derived from it cannot be made with braces either, unless a default constructor is given a body. -/
theorem C159_noncreational (d : Decls) (k : Bool) (bs ms : List Cls) (h : d.ctor ≠ .user) (hb : NonCreational ∈ bs) :
    canBraces NonCreational = false ∧ canBraces (.mk d k bs ms) = false := by
  refine ⟨by decide, ?_⟩
  have ha : aggregate (.mk d k bs ms) = false := by
    cases bs with
    | nil => cases hb
    | cons => simp [aggregate]
  rw [canBraces, ha]
  exact C159_nondefault (.sub h (b := NonCreational) (by simp [Cls.bases, hb])
    (.sub (by decide) (b := NonDefault) (by simp [NonCreational, Cls.bases]) (.here rfl)))

/-- **C159 fails: own copies.** A class that writes its copy constructor can be copied, and moved if it declares no move constructor, whatever it is derived from. -/
theorem C159_user_violated (d : Decls) (k : Bool) (bases members : List Cls) (h : d.copy = .user) (hm : d.move = .none) :
    (avail (.mk d k bases members)).copy = true ∧ (avail (.mk d k bases members)).move = true := by
  simp [avail, combine, h, hm, canCopy, seenMove]

/-! ## Owners -/

/-- The classes that release something and cannot be copied; of templates any instance. -/
def OwnerClass (c : Cls) : Prop := c ∈ [Library, NetworkBase, UdpClient, UdpServer, TcpSocket, WithClient, Mutex, Semaphore, ThreadBase, ThreadCrtp, Counter, Locker,
    ConditionVariable, FileStream, NamedPipeEnd, NamedPipeStream, PipeStream, SharedCounter, UniquePointer, SoftMutex, QueuedArray] ∨
  ∃ o, c = SharedMembers o

theorem owner_combine {c : Cls} (h : OwnerClass c) : (avail c).copy = false ∧ (avail c).copyAssign = false := by
  rcases h with h | ⟨o, rfl⟩
  · simp only [List.mem_cons, List.not_mem_nil, or_false] at h
    rcases h with rfl | rfl | rfl | rfl | rfl | rfl | rfl | rfl | rfl | rfl | rfl | rfl | rfl | rfl | rfl | rfl | rfl | rfl | rfl | rfl | rfl <;> decide
  · have := C159_prohibited (c := SharedMembers o)
      (.sub Decl.noConfusion Decl.noConfusion Decl.noConfusion Decl.noConfusion (b := NonAssignable) (by simp [SharedMembers, Cls.bases])
        (.sub (by decide) (by decide) (by decide) (by decide) (b := NonMove) (by simp [NonAssignable, Cls.bases]) (.here (.inr rfl))))
    exact ⟨this.1, this.2.2.1⟩

/-- **C159, owners.** No owner in the list can be copied, and neither can anything that has one of them in it and writes no copy or move operation. -/
theorem C159_owners_partial {c : Cls} (h : Has OwnerClass c) : (avail c).copy = false ∧ (avail c).copyAssign = false := by
  induction h with
  | here h => exact owner_combine h
  | @sub c b h1 h2 h3 h4 hb _ ih =>
    rw [avail_eq]
    have hm := mem_avails hb
    simp only [combine, all_false (f := (·.copy)) hm ih.1, all_false (f := (·.copyAssign)) hm ih.2, canCopy_false h1, canCopy_false h3, and_self]

/-- **C159 fails: owners that can be copied.** `UniqueLocker`, `AlignedObject`, and `RaiiCaller` and `InitializerList` of anything that can be copied. -/
theorem C159_owners_violated (c : Cls) (h : (avail c).copy = true) (h' : (avail c).copyAssign = true) :
    ∀ o, o = UniqueLocker ∨ o = AlignedObject ∨ o = RaiiCaller c ∨ o = InitializerList c → (avail o).copy = true ∧ (avail o).copyAssign = true := by
  intro o ho
  rcases ho with rfl | rfl | rfl | rfl
  · decide
  · decide
  · simp [RaiiCaller, avail, avails, combine, canCopy, h, h']
  · simp [InitializerList, avail, avails, combine, canCopy, h, h']

/-- A guard that is moved is copied: the call made at the end is made twice. -/
theorem C159_guard_move (c : Cls) : (avail (RaiiCaller c)).move = (avail c).copy := by
  simp [RaiiCaller, avail, avails, combine, canCopy, seenMove]

/-- **C159 fails: threads.** `ThreadBase` can be moved, but `ThreadCrtp` declares a destructor and so has no move operations: nothing derived from it in any number of steps can
be moved unless it writes its own. -/
theorem C159_threads_violated : ((avail ThreadBase).move = true ∧ (avail ThreadBase).moveAssign = true) ∧
    ∀ {c : Cls}, Has (fun c => c = ThreadCrtp) c → (avail c).move = false ∧ (avail c).moveAssign = false := by
  refine ⟨by decide, fun {c} h => ?_⟩
  have : (avail c).copy = false ∧ (avail c).move = false ∧ (avail c).copyAssign = false ∧ (avail c).moveAssign = false := by
    induction h with
    | here h => subst h; decide
    | @sub c b h1 h2 h3 h4 hb _ ih =>
      have hm := mem_avails hb
      rw [avail_eq]
      obtain ⟨i1, i2, i3, i4⟩ := ih
      simp only [combine, all_false (f := (·.copy)) hm i1, all_false (f := (·.move)) hm i2, all_false (f := (·.copyAssign)) hm i3,
        all_false (f := (·.moveAssign)) hm i4, canCopy_false h1, canCopy_false h3, seenMove_false h2, seenMove_false h4, and_self]
  exact ⟨this.2.1, this.2.2.2⟩

/-- What each owner can do: made by default, moved, assigned by moving. -/
theorem C159_table :
    [Library, NetworkBase, UdpClient, UdpServer, TcpSocket, WithClient, Mutex, Semaphore, ThreadBase, ThreadCrtp, Counter, Locker, UniqueLocker, ConditionVariable,
      FileStream, NamedPipeEnd, NamedPipeStream, PipeStream, SharedCounter, UniquePointer, SoftMutex, QueuedArray].map
      (fun c => ((avail c).ctor, (avail c).move, (avail c).moveAssign)) =
    [(true, true, true), (false, true, true), (false, true, true), (false, true, true), (false, true, true), (false, true, true), (true, true, true), (true, true, true),
      (true, true, true), (true, false, false), (true, true, true), (false, false, false), (false, true, true), (false, false, false),
      (true, true, true), (true, true, true), (true, true, true), (true, true, true), (true, false, false), (true, true, true), (true, true, true), (true, true, true)] := by
  decide

/-! ## Concrete cases -/

/-- A program's own thread class, three classes away from `ThreadBase`. -/
example : Has (fun c => c = ThreadCrtp) (.mk { other := true } true [.mk {} true [ThreadCrtp] []] []) :=
  .sub (by decide) (by decide) (by decide) (by decide) (b := .mk {} true [ThreadCrtp] []) (by simp [Cls.bases])
    (.sub (by decide) (by decide) (by decide) (by decide) (b := ThreadCrtp) (by simp [Cls.bases]) (.here rfl))

/-- A class with a mutex and a stream as members. -/
example : Has OwnerClass (.mk {} true [] [Mutex, FileStream]) :=
  .sub (by decide) (by decide) (by decide) (by decide) (b := FileStream) (by simp [Cls.members, Cls.bases]) (.here (.inl (by simp)))

/-- `ObjectViewer` (include/FlameIDE/Templates/ObjectViewer.hpp 15). -/
example : Has (fun c => c = NonCopy ∨ c = NonMove) (.mk { ctor := .user, other := true } false [NonCopy, NonMove] []) :=
  .sub (by decide) (by decide) (by decide) (by decide) (b := NonMove) (by simp [Cls.bases]) (.here (.inr rfl))

example : HasD (fun c => c = NonDefault) NonCreational := .sub (by decide) (b := NonDefault) (by simp [NonCreational, Cls.bases]) (.here rfl)

example : (avail (.mk {} false [] [])).copy = true ∧ (avail (.mk {} false [] [])).copyAssign = true := by decide

example : allBraces [NonDefault, .mk {} false [] []] = true := by decide

namespace Flame
open Special
example := C159_prohibited (c := .mk { ctor := .user, other := true } false [NonCopy, NonMove] [])
  (.sub (by decide) (by decide) (by decide) (by decide) (b := NonMove) (by simp [Cls.bases]) (.here (.inr rfl)))
example := C159_nondefault (c := NonCreational) (.sub (by decide) (b := NonDefault) (by simp [NonCreational, Cls.bases]) (.here rfl))
example := C159_noncreational {} true [NonCopy, NonCreational] [] (by decide) (by simp)
example := C159_user_violated { copy := .user } false [NonCopy] [] rfl rfl
example := C159_owners_partial (c := .mk {} true [] [Mutex, FileStream])
  (.sub (by decide) (by decide) (by decide) (by decide) (b := FileStream) (by simp [Cls.members, Cls.bases]) (.here (.inl (by simp))))
example := C159_owners_violated (.mk {} false [] []) (by decide) (by decide)
end Flame

end Flame
