# Formal model of FlameTeamIt/Libs — design

Source: `/repo` (C++), read as text, never built or run. Model: Lean 4 (`lean/Verif`), properties: `properties.jsonl`,
status of each property: `MANIFEST.json`, wrong-program experiments: `seeded/LOG.jsonl`.

## Trusted base

* Lean 4.33.0's kernel. Every theorem depends at most on `propext`, `Classical.choice`, `Quot.sound`; no axiom is added, no
  `sorry`/`admit`, no `native_decide`/`bv_decide`.
* The reading of the C++ source: each definition cites file and lines; the only tie between model and code is that reading.
* The compiler/standard semantics assumed: object lifetimes as in C++14, pointers inside one allocation are offsets, `size_t`
  is 64 bits (modelled by `Nat` unless the property is about wrap-around; then by `BitVec`/explicit modulus), little-endian
  host (a parameter where it matters).
* External calls are parameters or abstract events: allocation (success assumed unless said otherwise), pthread mutex/spin
  lock (mutual exclusion assumed), `close`, `dlopen`/`dlclose`, user callbacks.

## Modelling conventions

* `Res α = ok a | ub | loop` (`Verif/Basic.lean`): undefined behaviour and non-termination are *outcomes of the model*.
  `ub` = out-of-bounds access, null/dangling dereference, read of an unconstructed element, missing return value,
  double destruction. `loop` = out of fuel; a divergence finding is "for every fuel the result is `loop`".
* Containers over contiguous storage are modelled on a buffer of cells `List (Option α)`: `none` = raw storage, `some a` =
  live object. Pointers are indices. Every read/write/construct/destroy is checked (`Verif/Buf.lean`).
* Stateful code: `step` per operation, histories = lists of operations, theorems by induction on histories against a small
  separate specification (plain `List` operations, bounded queue, multiset of live objects ...).
* Concurrency: threads are programs of atomic steps at the granularity at which shared memory is touched, lock operations
  are atomic, theorem quantifies over all schedules.
* Calls through function pointers obtained by `reinterpret_cast` from functions with other pointer parameters (the lockers' callbacks, the
  typed PKCS#11 lists) are formally undefined; they are taken to reach the function, as they do on the supported platforms.
* When the code violates the property, the negation is proved with a concrete witness (theorem suffix `_violated` /
  `_diverges` / `_ub`) and the true part is proved with suffix `_partial`.

## Plan per property

| id | what is modelled | how it is proved |
|----|------------------|------------------|
| C01 | `Vector.hpp` cell-level: reserve, pushBack, popBack, insert, erase, clean | refinement to `List` by induction over histories |
| C02 | pushBack recursion with fuel, nextCapacity | terminates for capacity /= 1; divergence proved for full capacity 1 |
| C03 | template operator= | violated (size 0 after assignment / divergence); partial: storage contents |
| C04 | Vector(n), resize | violated with witnesses; partial: prefix preserved |
| C05 | `Array.hpp` StaticVector cell-level | refinement to bounded list, induction over histories |
| C06 | range insert, operator+= | direct loop proofs |
| C07 | both operator== | StaticVector violated; characterisation proved; StaticArray proved |
| C08 | StaticArray copy ctor / operator= / clone | copy ctor proved, others violated + characterised |
| C09 | CircularArray head/tail/buffer | refinement to bounded queue over histories |
| C10 | cbegin, copy ctor, operator= | violated with witness; partial when nothing was popped |
| C11 | circular ++ -- += -= | arithmetic mod n |
| C12 | circular operator[] | violated; partial for non-wrapping k |
| C13 | reverse operators | movement proved; comparisons violated |
| C14 | `List.hpp` on a heap of nodes with sentinels | representation invariant (doubly linked segment), induction; pop to empty violated |
| C15 | copy/move/clone | non-empty proved, empty is UB |
| C16 | `String.hpp` cell-level buffer with NUL | invariant + refinement over histories |
| C17 | pushBack(char) | overflow / divergence proved; partial |
| C18 | operator=(const Me&) | violated; raw assignment proved |
| C19 | insert/erase | fitting case proved; range insert divergence proved; every history of calls exactly, from text and capacity alone (`Verif/String/HistExact.lean`, with C16 and C17) |
| C20 | operator+=, operator+ | violated |
| C21 | HybridVector on top of the Vector/StaticVector models | refinement over histories; insert into a full array violated |
| C22 | reverseBytes on `BitVec` | byte-wise extensionality |
| C23, C24 | Serializer/Deserializer on byte lists | round trip by induction over value sequences |
| C25 | StringConvertions digit loops | equality with canonical digits |
| C26 | WideInt byte arrays | positional value |
| C27, C28 | Ipv4.cpp char loops | round trip on digits where true, violations by witness |
| C29, C30, C31, C32, C33, C34, C35 | ownership/lifetime state machines with a log of constructed/destroyed objects | invariants over histories |
| C36, C37, C39, C40, C41 | interleaving models | invariants over all schedules |
| C38 | spin lock + signal handler on the same thread | a stuck reachable state is exhibited and proved stuck forever |
| C42, C43, C44, C52 | resource ownership logs | invariants over histories / violations |
| C45, C47 | byte queues on the Vector/CircularArray models | refinement |
| C46 | pointer loop on ring positions | arithmetic; violations when the range does not wrap |
| C48, C49, C50, C51, C53, C54 | utilities | direct proofs |

| C55, C56 | element identity and object counts on the Vector model | exact domains; violations by general theorems |
| C57-C62 | copies, reverse erase, moves, destruction, backward iteration of Array, CircularArray, List | invariants of the refinements above |
| C63-C67 | compile-time reversal, signed and compound operators of WideInt | direct proofs / refutations for every value |
| C68, C69 | POSIX reads/writes into split ranges; descriptor ownership | exact results; invariants over histories |
| C70 | byte copy, length, maximum/minimum | direct proofs |
| C71 | thread objects and native threads | ownership log, invariants over histories; violations in every state |
| C72 | status codes of pthread/sem wrappers | direct proofs for every outcome and every errno |
| C73 | socket addresses as memory bytes | digits of the IPv4 text + byte order; refutations for classes of addresses |
| C74, C75, C76 | waitBytes, alive, transfers | loop induction over arbitrary system answers; case analysis |
| C77 | UDP servers, datagrams and client objects | log of receptions and replies, invariant over histories |
| C78 | `EventCatcher` handler: registered servers, notifications | exact dispatch; loss and starvation by general theorems |
| C79 | descriptor flags under enable/disable with every fcntl outcome | exact flags after disable; violations |
| C80, C81, C83 | `Pkcs11.cpp` accessors over the Vector and Expected models, module answers as parameters | exact results; violations for all answers |
| C82 | initialise/finalise histories of a `Pkcs11` object with the module's state | invariant over careful histories; violations |
| C84, C85 | `AsIntegralType` operators over a model of C++ integer types (conversion, promotion, common type) | exact results for every type pair; domain of agreement with integer arithmetic; violations |
| C86, C87 | `byte_t` operators over the same integer types | agreement with 8-bit words; exact domain of shift counts |
| C88, C89 | `IntegerIterator` and ranges of them | traversal by induction over the distance; exact moves and differences |
| C90, C91 | `Slot` over the library model, module answers as parameters | induction over histories of waits; violations |
| C92 | `InitializeArgs` objects in variables | invariant over all histories (acceptable to C_Initialize); values per operation |
| C93 | mutex callbacks with live handles and a log | invariant over careful histories; violations |
| C94, C95 | soft token's general functions over all call histories, with a separate PKCS#11 specification | exact codes by induction; refinement for polite histories; violations |
| C96-C98 | all structure wrappers as a table read off the source, objects as member tables | general fold lemmas over arbitrary values; the table facts checked by the kernel |
| C99-C101 | allocators as operations on a heap of blocks with live/destroyed objects and a log | invariant over careful histories; exact block sizes modulo 2^64; violations |
| C102-C104 | initializer lists, scope guards, aligned storage over a log of constructions, destructions and calls | induction over histories; violations |
| C105, C106, C110 | compile-time lists as functions into values or compile errors | induction over the pack |
| C107 | tuple as chain of base classes | induction over the components |
| C108 | two threads, one system call per step, system answers as parameters | invariant over all interleavings, progress measure, deadlock characterised exactly |
| C109 | list of descriptors handed to `close` | cases |
| C111-C113 | Windows locks and semaphores, one interlocked operation or system call per step | invariants over all interleavings; exact transition tables; violating schedules for every number of threads or value |
| C114 | Windows thread objects over a log of handles | ownership ledger as for POSIX, plus which object each thread works on |
| C115, C116 | the mask handed to WSAAsyncSelect; message queue, dispatch, re-posting of FD_ACCEPT and FD_READ | cases; invariant over all histories; progress by induction on the waiting connections |
| C117, C119 | Windows pipe objects over a log of handles; unwritten flags are `none` and reading them is undefined | ownership ledger; exact effect of each call |
| C118 | two threads and other processes, one system call per step | invariant over all schedules; schedules that fail or hang |
| C120 | Windows socket creation and queries, the system's answers as parameters; open sockets by a log | exact outcome by cases; invariants over all histories |
| C121, C122 | Windows UDP on the states of C77; TCP probe and lengths as `int` | refinement of the POSIX model where datagrams fit; exact results elsewhere |
| C123 | Windows file stream objects over a log of handles, an unwritten flag is `none`; transfers through `DWORD` lengths | ownership ledger by simulation into the POSIX model; exact set of undefined calls; transfers equal to POSIX below 2^32 bytes |
| C124 | stream socket addresses as members that may be unwritten; texts as memory with an end | for all texts: exact set accepted, value always zero, undefined without terminator; copies by loop invariant |
| C125 | circular vectors over a log of memory blocks; head and tail as offsets | ownership ledger over all histories; invariant head = tail, so always empty; exact set of undefined calls |
| C126 | tables generated from the sources: exported functions, callbacks, bindings, implementations; calls as lookups | the table against a separate list written from the standard, lifted to all arguments; composed with C98 |
| C127 | implementations that return OK as a table; memory by address; histories | for all arguments, memories and histories; against any notion of validity and any promised result |
| C128 | reverse walk over offsets, with pointer formation strict or by address | induction on the contents from the end; strict reading refuted for every container |
| C129 | table of the enumerations (generated), bit operations on the underlying type | every flag is one bit (kernel evaluation of the whole table), then induction on the list of flags |
| C130 | the same table | kernel evaluation of the whole table |
| C131 | copy, move, assignment, clone of the variant with its containers | representation relation, refinement of the list; induction over the later histories |
| C132 | iterators as variants of offsets with each operator | case analysis over the storages, induction over the traversal |
| C133 | network objects: descriptor, status and the answers of the system | status as a fold over the calls; last unrecovered failure by induction |
| C134 | the pointer in `EventCatcherBase`, threads within `notify` one access at a time, lifetimes of notificators | invariant over all interleavings; violating schedules from every state |
| C135 | mechanisms as tables of seven callbacks with the class of the object | exact answers; invariant "every callback belongs to the object's class" |
| C136 | a substep's two members, arbitrary `doImpl` | exact characterisation of the test |
| C137 | own elements and ranges as arguments of `StaticVector`, moved-from values kept or not (`keep`) | exact contents for every relation of source and position |
| C138 | strings with arguments that point into them: storage scanned and copied in place | copying within an allocation reduced to writing the values read; exact text for every case |
| C139 | list insertion walking nodes of a list while the chain is allocated and linked | the interleaved walk equals inserting the values from outside; then C14 |
| C140 | `HybridVector` calls whose argument lies in the storage in use | reduced to C137 (array) and C55 (vector); storage switch destroys the argument |
| C141 | the caller's variable beside the container: value categories, overload resolution, `forward`/`move` (`Verif/Utils/Forward`) | every function equals the container's own function plus an exact account of the argument, by cases and induction on the reallocation recursion |
| C142 | constructor selected by copying a non-const pointer object (`Verif/Own/Named`), arithmetic element types | invariants of C29/C30; sharing defined by writing through one and reading through the other |
| C143 | type traits as functions on a tree of C++ types, `Ct.error` for what does not compile (`Verif/Utils/TypeMod`) | induction on types; specification: the core of a type, integer types with sign and width |
| C144 | `operator bool` of the holders over the states of C29, C30, C32 (`Verif/Own/Truth`), once as C++ defines it and once on flat addresses | reachability invariants of C29, C32; case analysis for shared pointers |
| C145 | C++14 built-in comparison of two operands converted to `bool` (`Verif/Own/Truth`); `==` of accepted connections | exact answers from C144; the owned objects differ by C29 |
| C146 | non-const handlers with an arbitrary body, over the states of C33 and C34 (`Verif/Life/Reentrant`) | the invariants of C33/C34 at entry and after the body; orphans stay orphans |
| C147 | `Locker`/`UniqueLocker` on a counting semaphore, `sem_wait` granted or interrupted | permits + threads inside is invariant; runs with k interrupted threads by induction |
| C148 | `enableSignal` call by call, data arriving in between | invariant: never reported, no signal waiting for it |
| C149 | acceptance into a bounded queue | ledger of accepted descriptors over all histories |
| C150 | one direction of a TCP connection: `send`, `receive`, `numberBytesToRead` over the guarantees of the system (`Net/Flow`) | invariant over all executions; general gap after a partial send; exact effect of EPIPE |
| C151 | owner and started thread of a `ThreadCrtp` object interleaved, destruction part by part (`Conc/ThreadLife`) | exact characterisation of the safe uses over all schedules |
| C152 | the native call, runs of the signal handler, the reading of `errno` (`Os/Errno`) | exact code reported for every sequence of handler runs |
| C153 | sockets with identities behind descriptor numbers, waiting signals, the queues per kind (`Net/Stale`) | invariants over all histories; general negations |
| C154 | constructor, destructor and dispatch thread of the Windows catcher, interleaved (`Win/Catcher`) | invariant; a measure that every state can decrease; stuck states characterised |
| C155 | the disposition of SIGPOLL through construction, registration, data, the program's own `sigaction`, destruction (`Net/Disposition`) | invariant over all histories; general negations |
| C156 | `wait(functor)`, `unwait`, `isWait` and the destructor over the steps of `Conc/CondVar` (`Conc/CondLife`) | invariants over all interleavings; general negations |
| C157 | who holds the mutex through the steps of `Conc/CondVar` (`Conc/CondOwner`) | invariant over all interleavings of one wait and one notification; general negations |
| C158 | a pipe stream over a FIFO of bytes, with the status noted after each transfer (`Stream/Pipe`, transfers of `Stream/Split`) | invariant over all histories of linear transfers; general negations |
| C159 | the C++14 rules for implicit and defaulted special members over nested classes, and the declarations of the owners (`Utils/Special`) | induction over bases and members; complete tables |
| C160 | `winsockInit` line by line in any number of threads; static objects constructed, given sockets and destroyed in reverse order (`Win/Startup`) | invariants over interleavings; a constructed interleaving for each number of threads; induction over the program |
| C161 | `Library` over a linker that counts references; `find` by handle, null meaning the program (`Own/Symbols`) | invariant: references are the objects booked; a second invariant with one more |
| C162 | the two enumerations, `ValueTraits`, the alternatives of `Value`, `BaseValue` (`Ubjson/Table`) | against the format's own table, over every row; case analysis over all types |
| C163 | names and deletion flags of named pipe writers and streams, `remove` recorded (`Stream/PipeName`) | invariant: flag and name agree with the pipe held; removed = due; streams: names are the directory or none |
| C164 | strings over an allocator that may answer null, blocks numbered and recorded; list insertion and vector construction with a flag for the allocation (`String/Memory`, `Alloc/Exhaust`, `Alloc/Blocks`) | with memory: equal to the other models; invariant over all histories for the blocks; without: outcome for every operation |
| C165 | two copies of the `SharedPointer` machine of C30, one for pointers to libraries (variables and members of slots), one for pointers to slots, joined by `Slot::create`, `getLibrary` and the destruction of slots (`Crypto/Lifetime`) | the joined machine refines two C30 machines (invariant over all reachable states); early and missing finalisation in general, exact condition for calls on slots |
| C166 | `QueuedArray::init` and `Registrar::add` with an allocation that may fail (`Conc/RegistrarMem`) | simulation: histories equal the history without the failed attempts (then C37); undefined first event after any starved history |
| C167 | objects with addresses; `Vector::reserve` carrying bytes (`realloc`) or move-constructing; fixed-capacity, hybrid, circular and list objects as elements (`Vector/Reloc`) | induction over histories for address-free classes and for histories that carry nothing; every carried object with its own address refuted for all contents and places |
| C168 | List iterators as node addresses; `V.reserve`/`pushBack` with arbitrary allocator answers; `StrMem` blocks | Every list call is a splice of the entry list, so places of surviving nodes follow from one lemma; vectors and strings by induction over the pushes |
| C169 | Element operations that throw (Verif/Vector/Throw.lean, Verif/List/ThrowProps.lean): a counter of element operations that succeed, outcomes returned/threw/terminated | Window invariant for the storage touched, operation counts per loop, exact state after the j-th move; counting of undestroyed objects |
| C170 | Vector::pushBack with a count of requests and carried elements (Verif/Vector/Cost.lean); the rounds of List::size; String appends with the same count and the capacity over histories (Verif/String/Cost.lean) | Potential argument by induction on the appended values; the fuel of the list model counts rounds of the walk |
| C171 | Vector::reserve and Vector(size) in bytes on a 64-bit machine (Verif/Vector/Bytes.lean): the obtained block beside the reported capacity | Arithmetic modulo 2^64; refinement to the element model where nothing wraps |
| C172 | datagrams on their way, arrived and sent as lists; clients and server as calls; recvfrom/FIONREAD as documented (Verif/Net/Dgram.lean) | invariant over all executions (provenance of everything waiting and received; without strangers both ends), prefix argument for wait, explicit runs for the violations |
| C173 | the generic locked class of Verif/Conc/Locked.lean over the real Windows spin lock of Verif/Win/Spin.lean (Verif/Win/Locked.lean) | schedules constructed by induction on the number of threads; sequential calls by following the body |
| C174 | Traces of synchronising operations and accesses, happens-before and races (Conc/Race), attached to the executions of Conc/Locked, Conc/CondVar, Notify/Model and Win/Startup | A general theorem: variables accessed only under a properly used lock are not raced for (a lock that changes hands was released by one and taken by the other in between); invariants give the discipline for the locked classes; races are exhibited after every suitable state, or characterised exactly where nothing synchronises |
| C175 | `Ubjson/Held.lean`: the shared pointers of `Own/Shared` as the members of the holders, and a value per object | invariant of programs without copies (each object has one holder, counter 0), refinement to a list of values; simulation by `Own/Shared` for all programs |
| C176 | `Crypto/Section.lean`: threads of a module entering and leaving a section through the real callbacks (`Crypto/MutexCb`) or the stubs | invariant: the mutex is locked exactly while one thread is inside; induction over the threads for the stubs |
| C56 | constructor and destructor calls of Vector, counted along every history | balance invariant made = ended + size + lost per call (Vector/Tally*) |
| C177 | constructor and destructor calls of Array and HybridVector, including the containers left behind by useArray/useVector | the same balance invariant; where the elements live is followed by a two-line specification (`heapAfter`) |
| C178 | No new model: HVec.step takes the allocator's answers; within states which calls need no memory. | Independence of the answers for calls within; infinite recursion by induction over the fuel for the others; iff. |
| C179 | The assignments of the class models with the same object on both sides; CArr.assignSelf is new. | Per class, for every reachable state, from the invariants of its own property. |
| C180 | The states the move constructors of Vector, String, List and HybridVector leave behind, followed by any history of calls of their models (Verif/Life/Reuse.lean). | Vector: a state machine of three kinds of calls (idle, renewing, touching) over the state without storage, then run_roomy (capacities never shrink, so capacity one cannot recur); List: C14_step with the frame of the other list. |
| C181 | List used through pushBack/pushFront/popBack/popFront/clean from a new list | Invariants for a list whose tail or head dangles; a three-state automaton gives the outcome of every history; induction |
| C182 | Types as size and alignment; the layout of nodes, arrays, Optional and Object; element addresses; addresses from malloc as arbitrary multiples of 16 (Utils/Align). | Divisibility: element addresses differ by multiples of the size, hence of the alignment; the furthest alignedPointer moves a multiple of my is al - my. |
| C183 | Crypto/Several: modules with an initialised flag, the linker's count of openers, any number of Pkcs11Library objects with handle, function list and status | invariants over all histories; a per-call exact characterisation; counterexample histories |
| C184 | Own/Statics: function-local static objects of the library, static objects of the program with the uses of their constructors and destructors, the end of the program in reverse order of completion | projection on one of the library's objects, exact condition for all programs |
| C185 | BasicString::resize, reserve and clean over malloc/realloc sizes in 64-bit arithmetic, the real block kept apart from capacity() | refinement of the element model where the product fits; induction over the characters appended for the overrun |
| C186 | Library constructors over a failing allocator, initializeInterfaceList with a null list, getSlotIdList and RamStream::write over the allocator parameter of their models | refinement of C54 where memory is there; induction over fuel for calls that never return; exact case split for RamStream |
| C187 | which operator an expression with two adaptors uses and what it answers (`Verif/Iter/Stack`): stacks as an inductive type, positions as integers | induction over the stack; order and distance against iterated `++` |
| C188 | types of `*it` and `it[n]` of the same stacks, with compile errors as outcomes | induction over the stack |
| C189 | Several objects of Crypto/Library.lean over one module with one initialised flag and counted handles (Crypto/Shared.lean). | Invariants over all histories: at most one object is usable and then the module is initialised; pairing and unloading for a module that does not fail; explicit histories for the violations. |
| C190 | HybridVector::pushBack, popBack and erase with a count of requests and carried elements (Verif/Hybrid/Cost.lean), the switches of storage included | Counting shown not to change the containers; the work of one call from the place of the elements; a potential argument over histories of pushes and pops; rounds of four calls by induction for the counterexample |
| C191 | one file, open file descriptions with offsets, linear reads and writes by streams (Stream/Shared) | invariant over all histories: file = start ++ reported, offset of each reader = what it received; negations computed for all byte strings |
| C192 | `Serializer`/`Deserializer` around the TCP, RamStream and file models (`Bytes/Transport`) | layout of the messages, prefix delivered by the carrier (C150, C45, C191), byte order of both hosts free |
| C193 | Range.hpp over a memory of arrays with null, placed and unset pointers; the language's loop with a body that may store; the container makers at compile time | induction on the distance to the end; each loop equals a pass over the slice; exactness of bounds |
| C194 | the table of attribute traits and the class template's static conditions (compile time, `Ct`) | cases on the selected trait for every table; uniqueness by value of the enumerators |
| C195 | Vector's operations over an element class given by its own special members, instantiated with the String model | list induction over the shifting loops, exact cell contents; composition with C18 |
| C196 | Array's vector mode over the same element classes as C195 | reduction to the C195 theorems where the statements agree, list induction for copies and moves |
| C197 | Registration of the window class per process, the windows of the class, the member `window` and the phase of every copy's thread; the program's own use of the name. | Invariant over all executions of any number of copies: whose the class is determines the open windows. |
| C198 | the hybrid vector over element classes with their own operations: the array branch is the array of C196, the vector branch the vector of C195, and the strings are moved between them one by one and destroyed where they were | each change of storage is shown to keep the texts; calls then follow from C195 and C196 on either side, and histories by induction with the invariant that the container holds exactly these texts |
| C199 | `Optional`, the counterless array and the initializer list over element classes with their own copies and assignments (`Verif/Life/ElemHold`) | case analysis and induction over the places; String's exact copy assignment theorem (C18) |
| C200 | List nodes over element classes; every argument enters by the class's copy construction (`Verif/List/ElemModel`) | refinement of C14 through pairs (string, text); induction over histories |
| C201 | ring over element classes, objects entering by the class's copy or move construction, moved-from objects tracked (`Verif/Circular/ElemModel`) | refinement of C09 through pairs (string, text); induction over histories; invariant (no stray objects, inner count 0) for destruction |
| C202 | the outer vector over the element class `Vec` (`Verif/Vector/Nested`); calls on inner vectors through `operator[]` | specification over capacities and inner lists; one lemma for the shared recursion of the three appends; induction over histories |
| C203 | vector of pointers to numbered objects with a log of destructions (`Verif/Vector/OwnVec`) | invariant: held objects and destroyed objects together are a permutation of the objects made; induction over histories |
| C204 | array of pointers to numbered objects with a log of destructions (`Verif/Array/OwnArr`) | invariant of C203 extended by insertion and by objects made and lost at once; induction over histories |
| C205 | ring of pointers to numbered objects with a log of destructions, destructor walk included (`Verif/Circular/OwnRing`) | ring representation of C09 together with the permutation invariant of C203; induction over histories and along the ring |
| C206 | hybrid of pointers to numbered objects: carrying loops, destruction of what is left behind, log of destructions (`Verif/Hybrid/OwnHyb`) | one lemma for every carrying loop; invariant of C203; induction over histories |
| C207 | Vector of SharedPointers: pushBack by copy and by move, use, copies of an element, popBack, clean, a copy of the vector that comes and goes, move assignment to an element; per object a 64-bit counter beginning at 0 | invariant: the held objects are distinct, and the counter of each one alive is 0; then by induction on the history |

No property is considered inexpressible. Hardware memory-model effects (non-atomic flags), real signal timing and real
socket behaviour are outside the models; this is said at each affected property.

## Outcome per property

"partial" means: the code does not have the property in full. The theorems with suffix `_partial` (or without a suffix) prove
the part that holds, usually with the exact domain, and the others (`_violated`, `_ub`, `_diverges`, `_leaks`, ...) prove that
and how it fails outside. The property statements in `properties.jsonl` are left as a user would expect them.

<!-- outcome table -->
| id | title | status | theorems | outcome |
|----|-------|--------|----------|---------|
| C01 | Vector behaves like a sequence over every history | partial | `C01_vector_history_partial`, `C01_step`, `C01_history_from`, `C01_unit_capacity_diverges`, `C01_eraseRange_nontrivial_ub`, `C01_history_exact` | Refinement to a mathematical sequence over all valid histories; the code violates the property when the capacity is 1 (append hangs) and for middle range erase of non-trivial elements (UB), both proved. Exact: a history inside the bounds completes with the right contents iff it never appends with capacity 1 and never erases a middle range of non-trivial elements (C01_history_exact). |
| C02 | Appending to a Vector always completes | partial | `C02_append_completes_partial`, `C02_append_to_copy_diverges`, `C02_alloc_failure_diverges`, `C02_append_to_moved_from_ub` | Exact characterisation: append returns iff not (size = capacity = 1); violations proved. |
| C03 | Assigning a Vector gives the target the source's contents | partial | `C03_assign_empty_partial`, `C03_assign_never_works`, `C03_assign_diverges` | The code violates the property for every non-empty source (proved); only empty sources are assigned correctly. |
| C04 | Vector resize and sized construction produce the requested size | partial | `C04_sized_ctor_partial`, `C04_resize_partial`, `C04_resize_within_capacity`, `C04_resize_to_capacity_violated`, `C04_resize_unit_capacity_diverges`, `C04_resize_exact` | Vector(n) has size 3n/2; resize to exactly the capacity is a no-op; the remaining cases proved. |
| C05 | Fixed-capacity Array (vector mode) never overflows and behaves like a bounded sequence | partial | `C05_static_vector_history_partial`, `C05_static_vector_history_trivial`, `C05_step`, `C05_eraseRange_nontrivial_ub`, `C05_history_exact` | Complete for trivially assignable element types; for other types a middle range erase is UB in the code (proved), everything else proved. C05_history_exact gives the exact condition over whole histories. |
| C06 | Range insert into a fixed-capacity Array is all-or-nothing, range append fills up to capacity | proved | `C06_range_insert` | Range insert all-or-nothing, range append adds the longest fitting prefix. |
| C07 | Array equality means same elements | partial | `C07_static_array_eq`, `C07_static_vector_eq_partial`, `C07_static_vector_eq_violated` | Pure array equality is exact; vector-mode operator== compares with the first element only (exact characterisation and counterexample proved). |
| C08 | Copying a pure Array copies every element | partial | `C08_copy_ctor_partial`, `C08_assign_effect`, `C08_assign_correct_iff`, `C08_assign_violated`, `C08_other_partial` | Copy construction, construction from an initializer list and from another capacity proved; copy assignment and clone violate the property, exact effect proved. The move operations cannot be instantiated. |
| C09 | CircularArray is a bounded FIFO queue | partial | `C09_circular_array_fifo_trivial`, `C09_circular_array_fifo_partial`, `C09_clean_nontrivial_ub`, `C09_nontrivial_exact` | Full refinement to a bounded queue for trivially destructible element types; for other types clean() of a non-empty array destroys a local copy twice (UB), everything else holds. |
| C10 | Copies and const views of a CircularArray show its contents | partial | `C10_const_view_partial`, `C10_const_view_violated`, `C10_move_assign_partial`, `C10_assign_nonempty_ub` | cbegin() starts at the storage, not at head: const iteration/copying is right iff the array is empty or head is at the start; both directions proved. operator= also lacks a return. |
| C100 | Reallocating an array keeps its beginning | partial | `Alloc.C100_grow_partial`, `Alloc.C100_no_memory_partial`, `Alloc.C100_zero_violated`, `Alloc.C100_overflow_violated`, `Alloc.C100_null`, `Alloc.C100_create_free`, `Alloc.C100_exact` | Proved for positive sizes that fit; size 0 returns null although the array is gone, sizes beyond 2^64 give a smaller block. |
| C101 | Single object allocation pairs construction and destruction | partial | `Alloc.C101_construct`, `Alloc.C101_destroy`, `Alloc.C101_pair_partial`, `Alloc.C101_destroy_exact`, `Alloc.C101_rvalue_violated` | Pairing proved; destroy(null) is undefined, and an rvalue argument is copied instead of moved. |
| C102 | An initializer list holds its arguments and destroys them once | partial | `Life.C102_contents_partial`, `Life.C102_writable`, `Life.C102_destroy_twice`, `Life.C102_destroy_violated` | Contents proved; every list destroys the elements of its arguments twice. |
| C103 | A scope guard runs its final call exactly once | partial | `Life.C103_once_partial`, `Life.C103_never_ub`, `Life.C103_copy_violated`, `Life.C103_copies_exact` | Exactly once for guards that are not copied; every copy runs the final call again. |
| C104 | Aligned storage destroys the object constructed in it | partial | `Life.C104_never_destroyed`, `Life.C104_leak_violated`, `Life.C104_proper_partial`, `Life.C104_copy_shares` | Nothing constructed in aligned storage is ever destroyed by it; nothing is destroyed wrongly. |
| C105 | Position of a type in a parameter pack | proved | `TypeList.C105_index`, `TypeList.C105_index_pick`, `TypeList.C105_in_pack` | Index of first occurrence, round trip and membership for all packs. |
| C106 | Uniqueness of a parameter pack | partial | `TypeList.C106_distinct_partial`, `TypeList.C106_rejected_partial`, `TypeList.C106_two`, `TypeList.C106_repeated_violated`, `TypeList.C106_exact`, `TypeList.C106_single_violated` | Packs without repetition are accepted, but of those with repetition only the ones whose single repetition is the last two types are rejected (|| where && is needed); a pack of one type does not compile. |
| C107 | Tuple access by index | partial | `TypeList.C107_get_partial`, `TypeList.C107_put`, `TypeList.C107_move`, `TypeList.C107_const_violated`, `TypeList.C107_const_first` | Non-const access, assignment and move are right; const access to a component other than the first fails. |
| C108 | Making a named pipe | partial | `Fifo.C108_end`, `Fifo.C108_other_end_violated`, `Fifo.C108_result`, `Fifo.C108_progress`, `Fifo.C108_returns_partial`, `Fifo.C108_deadlock_violated`, `Fifo.C108_ordinary_file_violated`, `Fifo.C108_both_refused` | The ends that are returned are right for all interleavings; the end not requested is reported as descriptor 0 with success; when the reader's end cannot be opened the function waits forever; an ordinary file counts as a pipe. |
| C109 | Destroying a named pipe | partial | `Fifo.C109_close_end`, `Fifo.C109_reader_violated`, `Fifo.C109_writer_partial`, `Fifo.C109_foreign_violated` | The writer's end is closed once; the reader's end is never closed; a pipe made for reading closes descriptor 0. |
| C11 | Circular iterator arithmetic is arithmetic modulo the ring size | partial | `C11_circular_arithmetic_partial`, `C11_postfix_violated`, `C11_negative_violated`, `C11_plus_exact`, `C11_minus_exact` | All arithmetic is modulo the ring for prefix forms and non-negative amounts; postfix ++/-- and negative amounts leave the ring. |
| C110 | Type at an index of a parameter pack | partial | `TypeList.C110_pick_partial`, `TypeList.C110_pick_end_violated`, `TypeList.C110_pick_error` | Right inside the pack; the index just behind the last type gives void instead of an error. |
| C111 | Windows spin lock excludes | partial | `WinSpin.C111_exclusion_violated`, `WinSpin.C111_try_violated`, `WinSpin.C111_lock_returns_iff_taken`, `WinSpin.C111_lock_never_waits`, `WinSpin.C111_exclusion_partial`, `WinSpin.C111_try_partial`, `WinSpin.C111_unlock_partial`, `WinSpin.C111_dead_violated` | The lock does not exclude: lock returns exactly when the lock is taken, and tryLock is not atomic. Exclusion is proved only for tryLock and unlock calls that do not overlap. |
| C112 | Windows mutex excludes | partial | `WinMutex.C112_exclusion`, `WinMutex.C112_lock_exact`, `WinMutex.C112_try_exact`, `WinMutex.C112_unlock_exact`, `WinMutex.C112_unlock_free`, `WinMutex.C112_success_means`, `WinMutex.C112_relock_violated`, `WinMutex.C112_foreign_unlock_violated`, `WinMutex.C112_fail_exact` | Proved for all schedules in which only holders unlock. Unlocking somebody else's mutex succeeds and breaks exclusion; locking twice waits for ever. |
| C113 | Windows semaphore counts | partial | `WinSema.C113_conservation`, `WinSema.C113_no_overtake`, `WinSema.C113_wait_exact`, `WinSema.C113_init_violated`, `WinSema.C113_post_violated`, `WinSema.C113_value_partial`, `WinSema.C113_query_alone`, `WinSema.C113_value_violated`, `WinSema.C113_failed_wait_violated`, `WinSema.C113_finish_exact` | Waits are counted right for all interleavings. Posts above the initial value and initial value 0 are refused; value() goes wrong after failed waits and when it overlaps with other calls. |
| C114 | Windows thread handles | partial | `WinThread.C114_handles_partial`, `WinThread.C114_rerun_violated`, `WinThread.C114_move_ctor_ub`, `WinThread.C114_status`, `WinThread.C114_failed_start`, `WinThread.C114_outlives_partial`, `WinThread.C114_move_violated`, `WinThread.C114_detach_violated`, `WinThread.C114_move_dangles`, `WinThread.C114_detach_dangles`, `C114_defined_exact`, `C114_lost_exact` | Proved without move construction (undefined), running twice (leaks) and, for the second half, moving or detaching running threads. C114_defined_exact and C114_lost_exact: over all histories, only move construction is undefined and only running an object that has a thread loses a handle. |
| C115 | Windows event registration | partial | `WinEvents.C115_request_partial`, `WinEvents.C115_connect_violated`, `WinEvents.C115_close_violated`, `WinEvents.C115_unknown_violated`, `WinEvents.C115_status` | CONNECT is never asked for (a function pointer is tested instead of its result); nobody is told about closed connections; unknown descriptors ask for everything. |
| C116 | Windows event delivery | partial | `WinEvents.C116_dispatch_data`, `WinEvents.C116_dispatch_accept`, `WinEvents.C116_error_violated`, `WinEvents.C116_spurious_violated`, `WinEvents.C116_connections`, `WinEvents.C116_all_connections`, `WinEvents.C116_all_data`, `WinEvents.C116_no_starvation`, `WinEvents.C116_loop_ends`, `WinEvents.C116_shutdown`, `WinEvents.C116_shutdown_violated`, `WinEvents.C116_dispatched` | Delivery is proved for all histories with each descriptor registered once. Messages with an error are dropped silently, and without a window the thread is never told to end. |
| C117 | Windows named pipe handles | partial | `WinPipe.C117_reader_destroy`, `WinPipe.C117_writer_destroy`, `WinPipe.C117_borrowed_violated`, `WinPipe.C117_given_up_violated`, `WinPipe.C117_owned_violated`, `WinPipe.C117_default_ub`, `WinPipe.C117_handles_partial`, `WinPipe.C117_assign_violated`, `WinPipe.C117_stream_destroy`, `WinPipe.C117_stream_borrowed_violated`, `WinPipe.C117_stream_open_violated`, `WinPipe.C117_stream_reopen_violated`, `WinPipe.C117_stream_open`, `C117_replace` | Proved for objects made from names, moved and reopened; borrowed handles are closed, assignment and half failed opening leak, default constructed objects cannot be used. |
| C118 | Windows named pipe rendezvous | partial | `WinFifo.C118_both_iff`, `WinFifo.C118_handles`, `WinFifo.C118_race_violated`, `WinFifo.C118_hang_violated`, `WinFifo.C118_ctor_violated`, `WinFifo.C118_foreign_violated`, `WinFifo.C118_partial`, `C118_failures` | Both ends are returned exactly if the second thread connects while the first waits; if it is faster the call fails and leaks, or never returns. |
| C119 | Windows unnamed pipe | partial | `WinPipe.C119_ctor_ub`, `WinPipe.C119_status_violated`, `WinPipe.C119_handles_partial`, `WinPipe.C119_moved_status_ub`, `WinPipe.C119_assign_violated`, `C119_assign` | Reads an unwritten flag; the status is inverted; the ends are closed once if the flag reads as something and nothing is assigned over. |
| C12 | Indexing through a circular iterator agrees with moving it | partial | `C12_index_iff_partial`, `C12_index_out_of_ring`, `C12_index_wrong_slot` | Exact characterisation of when it[k] is the right slot; wrong as soon as the move wraps (except one accidental case). |
| C120 | Windows socket creation | partial | `WinSock.C120_create_exact`, `WinSock.C120_bind_violated`, `WinSock.C120_open_partial`, `WinSock.C120_destroy`, `WinSock.C120_startup`, `WinSock.C120_startup_retried`, `WinSock.C120_client_partial`, `WinSock.C120_bad_address_violated`, `WinSock.C120_reconnect_violated`, `WinSock.C120_query_partial`, `WinSock.C120_failed_flag`, `WinSock.C120_failed_query_violated`, `WinSock.C120_is_server`, `C120_server`, `WinSock.C120_destroy_stale`, `WinSock.C120_asks`, `WinSock.C120_reconnect_exact` | A server whose address cannot be bound leaks its socket; clients for unacceptable addresses are made and address nothing; failed queries may read as success. The rest holds. |
| C121 | Windows UDP server | partial | `WinNet.C121_receive_exact`, `WinNet.C121_long_lost_violated`, `WinNet.C121_reply_after_failure_ub`, `WinNet.C121_reply_to_lost_violated`, `WinNet.C121_wait`, `WinNet.C121_as_posix_partial`, `WinNet.C121_reply_partial` | Datagrams longer than the buffer are lost with an error, after which a reply is undefined or goes to the wrong peer; otherwise as on POSIX (refinement). |
| C122 | Windows TCP probe and transfer | partial | `WinNet.C122_alive_exact`, `WinNet.C122_broken_violated`, `WinNet.C122_transfer_partial`, `WinNet.C122_large_violated`, `WinNet.C122_multiple_violated`, `WinNet.C122_transfer_exact` | Probing an idle connection blocks, a broken one is alive; transfers are exact below 2^31 bytes, above they are refused or move nothing. |
| C123 | File streams on Windows close their handle exactly once and transfer like those on POSIX | partial | `C123_streams_partial`, `C123_refines_posix`, `C123_default_ub`, `C123_ub_iff`, `C123_assign_leaks`, `C123_transfers_like_posix`, `C123_long_range_violated`, `C123_long_range_exact` | Default constructed streams read an unwritten flag when destroyed, assigned a handle or moved from; assignment over an owner leaks; lengths are taken modulo 2^32. Everything else refines the POSIX model. |
| C124 | A socket_utils address made from a text is the address the text denotes, and gives that text back | partial | `C124_text_violated`, `C124_null`, `C124_text_iff`, `C124_refused_violated`, `C124_accepted_iff`, `C124_unterminated_ub`, `C124_getAddress_violated`, `C124_v6_text_ub`, `C124_copy_partial` | Copying and assignment preserve the address. Every text gives 0.0.0.0; dotted texts are refused, texts with three colons are accepted; getAddress is always empty; an Ipv6 made from a text is uninitialised. |
| C125 | A circular vector holds the elements it was made from and frees its storage once | partial | `C125_blocks_partial`, `C125_always_empty`, `C125_range_violated`, `C125_no_memory_violated`, `C125_copy_violated`, `C125_default_violated`, `C125_move`, `C125_ub_iff`, `CVecIt.C125_iterator_forward`, `CVecIt.C125_iterator_back`, `CVecIt.C125_iterator_no_end_violated`, `CVecIt.C125_iterator_ub_exact` | Blocks are freed exactly once and moves hand over everything. No history puts an element into a circular vector; copies have no room; an empty one has capacity 2^64-1; assignments are undefined (no return). Its iterators step modulo the storage (the constructor that would make one does not compile), so the ring has no end to stop at. |
| C126 | Every function of the soft token reaches the implementation of its own meaning with the caller's arguments | partial | `C126_dispatch`, `C126_distinct`, `C126_lists`, `C126_copied_list_ub` | True of the exports and of both lists as constructed; in a copy of the 3.0 list C_MessageDecryptInit is an indeterminate pointer. |
| C127 | The soft token answers OK only for what it has done | partial | `C127_nothing_violated`, `C127_verdict_violated`, `C127_result_violated`, `C127_history_violated` | False for 87 of the 92 functions: they answer OK and do nothing. The remaining five are C94. Stated exactly for all arguments, memories and histories. |
| C128 | Backward traversal delivers the elements in reverse | partial | `C128_array_partial`, `C128_vector_partial`, `C128_string_partial`, `C128_from`, `C128_before_first_ub`, `C128_until` | Order proved with pointers taken as addresses; by the language's rules every backward traversal is undefined because rend() is the pointer before the first element. |
| C129 | Combined PKCS#11 flags can be taken apart again | partial | `PkEnum.C129_membership`, `PkEnum.C129_injective`, `PkEnum.C129_intersection`, `PkEnum.C129_zero_violated`, `PkEnum.C129_zero_which` | Proved for all flags that are not zero and all their combinations; the three zero enumerators are refuted (always or never found, depending on the test). |
| C13 | Reverse iterators order positions as traversal visits them | partial | `C13_reverse_partial`, `C13_reverse_compare_violated`, `C13_reverse_difference_violated` | Movement and comparisons of different positions hold; comparisons of equal positions and differences are wrong. |
| C130 | A PKCS#11 value stands for one enumerator | partial | `PkEnum.C130_distinct_partial`, `PkEnum.C130_shared_violated`, `PkEnum.C130_fits` | All enumerations but Version, SpecialValue and Attribute have distinct values; the three shared pairs are listed; ranges proved for all. |
| C131 | Copies of a HybridVector hold the same sequence and live on independently | partial | `C131_copy_partial`, `C131_clone`, `C131_move_partial`, `C131_assign_partial`, `C131_self`, `C131_from_container`, `C131_capacity`, `C131_independent_partial`, `C131_assign_empty_violated`, `C131_append_to_moved_from_ub`, `C131_append_to_copy_diverges` | Copies show the same sequence and develop independently. Assigning a container without storage leaves the target unchanged; appending to a copy of a one-element heap storage never ends; appending to a container moved from heap storage is undefined. The four operator= taking an Array or Vector have no return statement (undefined when used) and are not modelled. |
| C132 | HybridVector iterators are random access iterators | partial | `C132_integers_partial`, `C132_read_partial`, `C132_forward_partial`, `C132_backward_partial`, `C132_unset_violated`, `C132_stale`, `C132_stale_after_append`, `C132_insert`, `C132_stale_insert` | Holds for every container with storage; fails for one without (new, reset, last element erased): its iterators differ from themselves and traversal dereferences null. ConstIterator does not compile when made from an array iterator. |
| C133 | Network objects report whether their last operation failed | partial | `C133_tcp_exact`, `C133_returns_partial`, `C133_sticky_violated`, `C133_udp_exact`, `C133_accepted_exact`, `C133_accept_exact`, `C133_peer_exact`, `C133_bool_exact`, `C133_bool_violated`, `C133_reconnect` | Exact characterisation after every history. The status is sticky: transfers never clear it (only connecting or disconnecting does, and UDP clients never recover); a disconnected client and a client without a socket convert to true. UDP peers do report their last call. |
| C134 | Notification of socket events reaches the notificator that is set, and only it | partial | `Notify.C134_safe_partial`, `Notify.C134_faithful_partial`, `Notify.C134_notify_exact`, `Notify.C134_unset_ub`, `Notify.C134_late_violated`, `Notify.C134_destroy_ub`, `Notify.C134_forgotten_ub` | Proved for every interleaving in which unsetting, destroying (and, for faithfulness, setting) wait until no thread is inside notify; the code offers no way to wait. Otherwise violated: unsetting between the test and the use of the pointer dereferences null, a notificator can be called after unsetNotificator returned, and destroying it then is undefined. |
| C135 | A mechanism answers every query through the callbacks of its own class | partial | `Mech.C135_default_exact`, `Mech.C135_dispatch_exact`, `Mech.C135_answers_partial`, `Mech.C135_slice_ub`, `Mech.C135_assign_ub` | Default answers and dispatch are exact. Every query is answered as long as objects of derived classes are copied and assigned only within their class; the implicit public copy operations allow more, and then overridden queries call a derived class's callback for an object of another class. |
| C136 | A builder's substep tests true exactly if it succeeded | partial | `Builder.C136_test_inverted`, `Builder.C136_result_exact`, `Builder.C136_fresh_ub`, `Builder.C136_braces_exact`, `Builder.C136_args_ub` | The test is the negation of success for every step; an unexecuted step has an indeterminate error; the constructor with arguments calls into a derived object that does not exist yet. getResult is exact. |
| C137 | Fixed-capacity vector operations accept the array's own elements as arguments | partial | `SVec.C137_append_own`, `SVec.C137_insert_own`, `SVec.C137_insert_own_violated`, `SVec.C137_insertRange_own`, `SVec.C137_full_own` | True for appending and for sources before the position (and at it, for types whose moved-from value stays); behind the position the element one place earlier is inserted, and ranges are repeated, unspecified or taken too early (exact contents proved for every case). |
| C138 | String operations accept the string's own characters as arguments | partial | `C138_append_partial`, `C138_assign_exact`, `C138_insert_exact`, `C138_insert_violated`, `C138_range_exact` | True for appending a character, for appending own text with room to spare, for sources up to the insert position and for assigning a proper suffix; s = s.data() and s = move(s) empty the string, sources behind the position are taken after the shift, calls without room read freed storage or never return. Every case exact. |
| C139 | List operations accept elements and ranges of lists, including the list's own | partial | `C139_range_partial`, `C139_element`, `C139_empty_violated`, `C139_exact` | True for every nonempty list: ranges and elements of the list itself or another one, any position. Missing: the range of an empty list, whose begin() is null: counting it is undefined (C139_empty_violated). |
| C14 | List behaves like a sequence over every history | partial | `C14_step`, `C14_observe`, `C14_history_partial`, `C14_independent`, `C14_empty_violated`, `C14_insert_empty_violated`, `C14_popBack_last_violated`, `C14_popFront_last_violated`, `C14_erase_last_violated`, `C14_erase_empty_range_diverges`, `C14_history_violated`, `C14_append_range_partial`, `C14_append_range_violated`, `C14_step_exact`, `C14_history_exact` | Refinement to plain lists for every history inside ListSpec.safe; the excluded calls (empty list size/iteration/insert, popping the only element, erase of the last element by iterator, empty range at end) are proved undefined or divergent. |
| C140 | HybridVector operations accept the container's own elements as arguments | partial | `C140_push_exact`, `C140_insert_exact`, `C140_range_exact`, `C140_violated` | Exact result of every such call: correct with a slot left and the element or range before the position; a full inline array (or a range that exactly fills it) is destroyed before the argument is read; elements behind the position arrive as their predecessor; ranges around the position repeat a part. |
| C141 | A variable passed by name keeps its value | partial | `C141_array`, `C141_vector`, `C141_hybrid_exact`, `C141_hybrid_violated`, `C141_circular_push`, `C141_circular_emplace_exact`, `C141_circular_lost_violated`, `C141_variant_exact`, `C141_variant_violated`, `C141_variant_reach`, `C141_variant_constRvalue`, `C141_object_exact`, `C141_object_violated` | True of Array and Vector (pushBack, emplaceBack, emplace) and CircularArray::pushBack in every state. False of HybridVector and CircularArray emplacing, Variant::set, Variant(x) and Object(x): they move from a named variable (exact theorems say when); a full CircularArray loses an emplaced value. A const rvalue given to Variant::set leaves the variant unset. |
| C142 | Copying a shared pointer shares its object, copying a unique pointer is refused | partial | `C142_const_shares`, `C142_named_violated`, `C142_named_null_ub`, `C142_unique_violated` | True when the copied SharedPointer is const. False for an ordinary variable: the variadic constructor is chosen and, for arithmetic element types, makes a new object of value 1; UniquePointer can be 'copied' the same way. For other element types such a copy does not compile. |
| C143 | Type traits name the type they say | partial | `TypeMod.C143_removeAll_exact`, `TypeMod.C143_removeAll_violated`, `TypeMod.C143_remove_one`, `TypeMod.C143_pointer_exact`, `TypeMod.C143_pointer_only`, `TypeMod.C143_pointer_violated`, `TypeMod.C143_add_exact`, `TypeMod.C143_addVolatile_violated`, `TypeMod.C143_add_violated`, `TypeMod.C143_integral_exact`, `TypeMod.C143_integral_violated`, `TypeMod.C143_sign_exact`, `TypeMod.C143_sign_violated`, `TypeMod.C143_limits_exact`, `TypeMod.C143_limits_violated`, `TypeMod.C143_variant_exact`, `TypeMod.C143_variant_const_exact`, `TypeMod.C143_variant_violated`, `TypeMod.C143_initlist_exact`, `TypeMod.C143_initlist_violated` | RemoveAllTrait is exact for every type without a level that is both const and volatile and does not compile otherwise; single removals are exact; a const or volatile pointer is not seen as a pointer; AddVolatileTrait yields a volatile pointer; the Add traits do not accept references; a qualified integer type (and char) is neither signed nor unsigned and MakeSigned/MakeUnsigned return it unchanged; const integers have no limits; a pointer kept in a Variant cannot be read by type and an InitializerList of pointers accepts nothing. |
| C144 | An object that holds something tests true exactly if it does | partial | `C144_shared_exact`, `C144_shared_guards_nothing`, `C144_shared_empty_ub`, `C144_shared_null_true`, `C144_shared_flat_exact`, `C144_unique_exact`, `C144_unique_guards`, `C144_optional_exact`, `C144_object_exact` | True for UniquePointer and Optional in all reachable states. False for SharedPointer: operator bool computes &members->object, so it never answers false; it is undefined exactly when dereferencing is (null, dangling, indeterminate), and on a machine that just adds the offset a null pointer tests true. |
| C145 | Comparing two objects compares what they hold or denote | partial | `C145_optional_exact`, `C145_optional_right_iff`, `C145_optional_number`, `C145_shared_exact`, `C145_unique_violated`, `C145_unique_right_iff`, `C145_ipv4_exact`, `C145_ipv4_violated`, `C145_accepted_eq`, `C145_accepted_neither`, `C145_accepted_ne_iff` | Only == of AcceptedConnection is a real comparison. Everything else converts both operands to bool and compares the results: exact characterisations of the answers and of when they happen to be right. |
| C146 | A handler may give its Expected a new value | partial | `C146_common_exact`, `C146_common_lost`, `C146_common_argument`, `C146_common_drop_ub`, `C146_templates_kept`, `C146_templates_new_value`, `C146_templates_both_called`, `C146_templates_argument`, `C146_common_empty`, `C146_templates_other` | True for templates::Expected (for arbitrary handlers; the argument itself is gone after the assignment). False for flame_ide::Expected: the state is set to UNKNOWN after the handler whatever it did, so the new value is lost and never destroyed. |
| C147 | Lockers on a semaphore let at most as many threads in as it has permits | partial | `C147_conserved_partial`, `C147_bound_partial`, `C147_admission_partial`, `C147_account`, `C147_signal_violated`, `C147_permits_grow`, `C147_restored_iff`, `C147_relock` | Proved while no wait is interrupted by a signal and UniqueLocker is not unlocked without holding, locked twice or constructed with UNLOCK. With signals it is false: an interrupted sem_wait lets the thread in without a permit, any number of threads can be inside at once, and each of them adds a permit when it leaves. The account of permits is proved for all runs. |
| C148 | Data on a registered descriptor is reported whenever it arrived | partial | `C148_early_data_never_reported`, `C148_wrong_descriptor`, `C148_registered_partial`, `C148_only_registered_partial` | False for data that arrives before the third fcntl call: it is never reported (or reported as an event of descriptor 0), for every history. Proved for data after registration and, except for descriptor 0, that only registered descriptors are reported. |
| C149 | A connection taken by the event catcher is handed to the program or closed | partial | `C149_handed_over_partial`, `C149_full_queue_leaks`, `C149_clear_leaks`, `C149_lost_exact` | Proved while no connection is accepted with the queue full. A connection accepted with the queue full stays open for ever and its descriptor is never given to anybody, for every history before and after. C149_lost_exact says which connections of any history are given to nobody: exactly those accepted while the queue was full and those waiting at a clear. |
| C15 | List copies and moves preserve contents | partial | `C15_copy_partial`, `C15_move_partial`, `C15_moveAssign_partial`, `C15_empty_violated`, `C15_moveAssign_violated`, `C15_init_partial`, `C15_init_empty_violated`, `C15_clone_partial`, `C15_exact` | True for nonempty sources; from an empty list (or self move) the code is undefined. Copy assignment does not compile and is not modelled. C15_exact: for two different objects each of copy construction, move construction and move assignment is right exactly if the source is not empty, construction from an initializer list exactly if it is not empty. |
| C150 | What one end of a TCP connection sends, the other receives | partial | `C150_in_order`, `C150_end_of_data`, `C150_full_sends_partial`, `C150_short_send_violated`, `C150_empty_range_says_end`, `C150_counted`, `C150_failure_exact`, `C150_survives_iff`, `C150_status` | Order and completeness hold for the bytes send says it took; a sender who only checks the status can leave gaps; an empty range gives the end-of-data answer; EPIPE raises SIGPIPE (no MSG_NOSIGNAL), which ends a process that left it at its default. |
| C151 | A started thread works on an intact object | partial | `C151_safe_iff`, `C151_waited_partial`, `C151_library_calls_violated`, `C151_destroyed_under_thread`, `C151_poll_never_ends` | Safe exactly if the owner waits for the end of the body by its own means and never calls join(): ~ThreadBase joins only after the derived parts are destroyed, and joins again after join(). The library's own calls offer no safe use. |
| C152 | A failing call is reported with its own error code | partial | `C152_exact`, `C152_undisturbed_partial`, `C152_violated` | The code reported is that of the last call that failed in the thread before errno is read; the handler does not save errno, so a failing call inside it replaces the code. |
| C153 | A popped descriptor is the registered socket the event happened to | partial | `C153_happened`, `C153_partial`, `C153_drained_partial`, `C153_removed_violated`, `C153_waiting_violated`, `C153_reused_violated`, `C153_misfiled_violated` | Neither the queues nor the waiting signal are touched by remove and close, and events carry only the number: removed sockets are still delivered, events of a closed socket are attributed to the next one with its number, and filed under its kind, through a null pointer if that kind was never added. Everything holds if sockets are removed and closed only when none of their events is on its way. |
| C154 | The Windows event catcher can be constructed and destroyed | partial | `C154_intact`, `C154_ready`, `C154_partial`, `C154_no_thread_violated`, `C154_no_window_violated`, `C154_no_room_violated`, `C154_fail_ends` | The constructor polls a flag only the thread sets: without a thread it never returns. Without a window the destructor posts nothing and ~ThreadBase waits forever; the same if FINISH finds no room. Otherwise both end under every schedule and the thread's object is intact. |
| C155 | SIGPOLL is the library's while registrars are used and the program's otherwise | partial | `C155_partial`, `C155_restored_partial`, `C155_exit_violated`, `C155_overwritten_violated`, `C155_taken_violated`, `C155_unset_violated`, `C155_reset_violated`, `C155_answers` | Holds if the signal set can be built, the program leaves the signal alone while registrars are used and every socket is removed before the end. Otherwise: a socket left registered at the end kills the process at the next data; a handler the program installs meanwhile silences the library and is overwritten by the destructor; a failure to build the signal set is not recorded, so registering reports success without a handler and the destructor resets the disposition. |
| C156 | A condition variable's waits with a condition, withdrawals and destruction behave as documented | partial | `C156_functor_partial`, `C156_ready_violated`, `C156_unwait_none_violated`, `C156_unwait_one_violated`, `C156_destroy_partial`, `C156_destroy_alone`, `C156_destroy_ub`, `C156_destroy_hangs` | wait(functor) returns only with the condition true, but blocks for a notification even if it is true already. unwait without waiters wraps the counter to 255, with a waiter it makes notify ignore that waiter. Destruction is fine with at most one waiter; with two it hangs or leaves a waiter that writes to the destroyed object. |
| C157 | Over a mutex, only the thread that locked it unlocks it | partial | `C157_partial`, `C157_holder`, `C157_notify_violated`, `C157_tryWait_violated`, `C157_again_violated` | Holds for one wait answered by the thread that holds the mutex. A notify or tryWait by any other thread unlocks a mutex it does not hold; so does a later notify of the holder after a woken thread has waited again. |
| C158 | A pipe stream carries bytes in order and reports failures | partial | `C158_partial`, `C158_unmade`, `C158_circular_violated`, `C158_end_violated`, `C158_empty_violated`, `C158_descriptors_violated`, `C158_move_ub`, `C158_assign_violated`, `C158_moved_from`, `C158_circular_partial`, `C158_second_violated` | Order and status hold for a stream that is not moved and is given linear ranges that are not empty. They fail for circular ranges, empty ranges, invalid descriptors and moved streams. |
| C159 | The creation prohibitions prohibit what they name, and owners of a resource cannot be copied | partial | `C159_prohibited`, `C159_nondefault`, `C159_untouched`, `C159_same_violated`, `C159_braces_violated`, `C159_noncreational`, `C159_user_violated`, `C159_owners_partial`, `C159_owners_violated`, `C159_guard_move`, `C159_threads_violated`, `C159_table` | Prohibitions and most owners proved. NonCopy, NonMove and NonAssignable are one prohibition; NonDefault{} is allowed; UniqueLocker, RaiiCaller, InitializerList and AlignedObject can be copied; threads made with ThreadCrtp cannot be moved. |
| C16 | String stays NUL-terminated and in bounds while appending C strings | proved | `C16_history`, `C16_history_default`, `C16_assign_null_ub`, `C16_assign_capacity`, `C16_history_exact`, `C16_history_exact_default` | All histories of C-string construction/append/assign, popBack, erase, range erase, character insert, clean and copy refine the text; within three nested calls. Assigning a null pointer is undefined (proved separately). Every history of eighteen kinds of calls is characterised exactly (text, capacity, undefined or never returning) by text and capacity alone; assigning another String is left to C18. |
| C160 | Winsock is started before use and ended once, after the last socket | partial | `C160_started`, `C160_serial_partial`, `C160_race_violated`, `C160_end_exact`, `C160_end_partial`, `C160_end_violated` | Ready stays ready, and never ended more often than started: any interleaving. Paired when the first calls do not overlap; n overlapping first calls start Winsock n times and end it once. Closing at the end is in time exactly for holders constructed after the library's object; an object constructed earlier and given a socket later closes it after Winsock has ended. |
| C161 | Library::find gives the library's symbols, which stay valid while an object for the library lives | partial | `C161_loaded_partial`, `C161_mapped_iff`, `C161_unloaded_violated`, `C161_assign_violated` | A loaded object finds exactly its library's symbols, and the library is in memory exactly while an object holds it, if moved-from objects are not destroyed and nothing is assigned over a loaded object. An object without a library finds the symbols of the program itself; a library whose object was assigned over is never unloaded. |
| C162 | The UBJSON tables describe the format and its values can be held | partial | `C162_markers_partial`, `C162_signs`, `C162_payload_exact`, `C162_payload_violated`, `C162_getType`, `C162_count_violated`, `C162_holder_partial`, `C162_assign_violated`, `C162_no_type` | Markers, closing markers, widths and signs are the format's and getType names the alternative. False: T and F are said to carry a payload, the type count is one too many, and assigning a plain value to a BaseValue is undefined (no return). BaseValue with allocation: C175. |
| C163 | A named pipe's file is removed when asked for, and no other file is | partial | `C163_writers_partial`, `C163_move_violated`, `C163_assign_violated`, `C163_open_violated`, `C163_default_violated`, `C163_failed_violated`, `C163_self_violated`, `C163_names_violated`, `C163_stream_violated`, `C163_status_violated` | Careful histories of writers remove exactly the pipes to be deleted. False: moving loses the name (remove(nullptr)), assigning or opening removes the former name, a failed writer removes the file all the same, setName and streams know only the directory /tmp/, and a stream's open always reports success. |
| C164 | Running out of memory leaves containers as they were | partial | `C164_string_partial`, `C164_fits_partial`, `C164_resize_violated`, `C164_afterwards_violated`, `C164_grow_violated`, `C164_ctor_violated`, `C164_list_partial`, `C164_list_violated`, `C164_vector_partial`, `C164_vector_violated`, `C164_blocks_partial`, `C164_ctor_partial` | With memory available everything is as in the other models, and operations that fit ask for none. Without memory a string's resize silently loses characters and block and the string cannot even be destroyed, growing operations, constructors and list insertions write through null, Vector(n) claims elements it has not; Vector::reserve alone copes (C02). |
| C165 | A PKCS#11 module stays initialised while something refers to its library | partial | `C165_finalised_while_referred`, `C165_never_finalised`, `C165_refs_meaning`, `C165_look_violated`, `C165_slot_dropped`, `C165_alive_partial`, `C165_use_exact` | False in the code, because the counter of a SharedPointer starts at 0: in every execution a module is finalised only while exactly one pointer or slot still refers to it, and never once nothing does; copying slot->getLibrary() and dropping the copy finalises the module under a slot that was its only owner, after which calls on the slot are undefined; slots whose only pointer is dropped are never destroyed. Proved part: a library with two references and a slot with two pointers exist and can be used; calls on a slot are defined exactly while both exist. |
| C166 | Registering a socket without memory | partial | `C166_event_violated`, `C166_retry_partial`, `C166_later_adds`, `C166_init` | False in the code: add ignores the result of init and answers what enable answers; after any history in which memory for the kind was never there, the socket's first event (in the signal handler) or a push for it is undefined. Proved part: an attempt without memory changes nothing, so histories behave as without the failed attempts (C37) and repeating works; adding to a kind whose queue exists allocates nothing. |
| C167 | The elements of a growing Vector keep their values whatever their class | partial | `C167_anywhere_partial`, `C167_still_partial`, `C167_static_violated`, `C167_ninth_violated`, `C167_hybrid_exact`, `C167_circular_violated`, `C167_circular_inside`, `C167_list_violated`, `C167_list_empty`, `C167_clean_in_place`, `C167_circular_in_place` | True for classes whose members contain no address inside the object, and for all classes as long as realloc carries no element elsewhere. False otherwise: realloc copies bytes, so fixed-capacity vectors, hybrid vectors in their first storage, circular arrays and non-empty lists are broken by growth. |
| C168 | References into a container stay valid where nothing has to move | partial | `C168_list_step`, `C168_list_history`, `C168_vector_room`, `C168_vector_full`, `C168_string_room`, `C168_string_empty_violated`, `C168_string_append_exact`, `C168_string_append_violated` | True for lists (in the region where C14 holds), vectors, and single characters added to a string that has storage. False for strings without storage (the terminator is written behind the reserved block) and for appending a C string of the reserved size (two more characters are demanded, so memory is asked for again). |
| C169 | An exception thrown by an element leaves the container whole | partial | `Thr.C169_insert_range_violated`, `Thr.C169_insert_exact`, `Thr.C169_insert_violated`, `Thr.C169_insert_grows`, `Thr.C169_append_exact`, `Thr.C169_emplace_exact`, `Thr.C169_erase`, `Thr.C169_erase_violated`, `Thr.C169_array_insert_violated`, `LL.C169_list_range_violated`, `LL.C169_list_range_leaks`, `Thr.C169_end_exact`, `Thr.C169_range_end_exact`, `Thr.C169_erase_end_exact` | False for insertion: constructions are noexcept, so a throwing constructor ends the program; an exception in a move or assignment leaves as many objects as were to be inserted undestroyed, a valueless place inside and the last element out of reach (exact state proved). Erasing keeps every place alive and loses no object but is not undone. A list's range insertion leaves the list as it was and leaks the nodes built so far. Proved for every failing operation. |
| C17 | Appending a single character to a String is safe and completes | partial | `C17_violated`, `C17_pushBack_iff`, `C17_after_append_partial`, `C17_pushBackMove_partial`, `C17_reserve_exact`, `C16_history_exact` | False: pushBack(const&) needs two free characters but tests for one; exact domain proved. After reserve(n) exactly n characters can be appended one by one. |
| C170 | Appending takes constant time on average, inserting into a list constant time | partial | `Cost.C170_vector_amortised`, `Cost.C170_vector_fill`, `Cost.C170_capacity_one_violated`, `LL.C170_list_insert_violated`, `C170_string_amortised`, `C170_string_space`, `C170_string_first` | Vectors: at most 4n elements carried for n appends from empty, capacity within 3/2, requests multiply the capacity by at least 4/3; except a capacity of 1, where appending never returns. False for lists: insert and emplace ask size(), which walks every node, so each insertion takes n+1 rounds wherever the place is. Strings: carried characters at most three times the growth of the capacity, capacity within 3/2 of text plus two, at most two requests per append; over any history the storage is at most 5/2 of the longest text plus three. |
| C171 | A capacity or size a Vector accepts is really there | partial | `VecBytes.C171_reserve_partial`, `VecBytes.C171_reserve_violated`, `VecBytes.C171_append_ub`, `VecBytes.C171_zero_ub`, `VecBytes.C171_elements_lost`, `VecBytes.C171_ctor_exact`, `VecBytes.C171_ctor_violated`, `VecBytes.C171_ctor_ub`, `VecBytes.C171_second_ub` | True while sizeof(T)*n fits 64 bits. Beyond that reserve reports n but obtains less (appending writes behind the block, elements may be cut off), a product of exactly 0 releases the block twice, and Vector(n) makes fewer elements than asked for or constructs behind the block. Proved for all counts and element sizes. |
| C172 | What a UDP client receives is a datagram of its server, whole | partial | `C172_one_datagram`, `C172_wait_whole`, `C172_reply_partial`, `C172_status`, `C172_truncation_violated`, `C172_stranger_violated`, `C172_two_readers_violated` | Proved over every execution with a losing, reordering, duplicating network: one datagram per receive, wait's size suffices, without strangers everything comes from the server in answer to the client, error reporting. False and proved so: a datagram longer than the range is cut without any sign; a client takes datagrams of anybody, indistinguishable from its server's (the socket is never connected and the source is dropped); with two readers wait's size may belong to another datagram. |
| C173 | Data the library protects by its spin lock is protected on Windows too | partial | `C173_overlap_violated`, `C173_counter_violated`, `C173_queue_violated`, `C173_one_at_a_time` | False and proved so: for every class any number of threads can be inside its methods at once; n increments of a fresh counter may leave 1; two pushes may both report success while one value is lost and the count exceeds the capacity. Proved: calls that do not overlap do what the method bodies do (any class) and release the lock. |
| C174 | Objects meant for several threads are used by them without data races | partial | `C174_discipline`, `C174_locked_partial`, `C174_waiters_partial`, `C174_condition_violated`, `C174_notificator_exact`, `C174_winsock_exact`, `C174_trace_faithful`, `C174_trace_reads` | True for every class whose methods run under a Locker (counter, event queues) and for the count of waiters of a condition variable. False for the flag locked inside a condition variable (written after unlocking by every waiter and notifier), for the notificator pointer (raced for exactly if it is set or unset and another thread takes events) and for the Winsock flag (exactly if one thread sets it and another calls). Synchronisation by the program itself is not modelled. |
| C175 | A UBJSON value kept in allocated memory behaves like a value | partial | `C175_lone_partial`, `C175_lone_leaks_violated`, `C175_leak_violated`, `C175_read_exact`, `C175_write_exact`, `C175_copy_shares_violated`, `C175_drop_copy_violated`, `C175_default_ub` | Without copies every holder has exactly the value a variable would have, after any history of making, moving, assigning, writing and destroying. Copies share one object (a write through one is read through the other), destroying a copy destroys the value of the only other holder, the value of a holder never copied is never given back, and a default constructed holder cannot even be destroyed. Assigning a plain value is undefined (no return), as in C162. |
| C176 | The mutex callbacks keep the threads of a module apart | partial | `C176_real_partial`, `C176_stub_violated`, `C176_failed_lock_violated`, `C176_failed_unlock_violated`, `C176_stub_no_mutex` | True with the real callbacks while native calls succeed. False when a native lock fails (the thread joins whoever is inside), when a native unlock fails (nobody enters again), and in programs linked with the stubs of Crypto.Pkcs11.NoThread, where any threads can be inside together although the arguments carry OS_LOCKING_OK. |
| C177 | Fixed-capacity and hybrid vectors destroy every element they created | partial | `C177_exact`, `C177_array_exact`, `C177_balanced_partial`, `C177_erase_violated` | Exact count of constructor and destructor calls: switching the storage loses nothing; every erase of an inner element loses one object in both containers, and every inner emplace of a HybridVector in allocated memory loses one (the inline array destroys it first). |
| C178 | A HybridVector needs no memory while its elements fit into it | partial | `C178_within_partial`, `C178_exact`, `C178_history_partial`, `C178_fill_violated` | Calls within what is there (inline capacity, or the room on the heap) do what they do with memory at hand, whatever the allocator answers, over all histories. Not so for a range that fills the object exactly: it leaves for the heap although it fits. A call that is refused the memory it needs never returns; exact for every call and state. |
| C179 | An object assigned to itself is as it was | partial | `C179_optional_partial`, `C179_variant_partial`, `C179_shared_exact`, `C179_shared_move_violated`, `C179_unique_violated`, `C179_object_violated`, `C179_mutex_violated`, `C179_semaphore_violated`, `C179_library_violated`, `C179_thread_violated`, `C179_socket_violated`, `C179_circular_violated`, `C33_self_move_ub`, `C33_copy_assign_ub`, `C40_self_move`, `C138_assign_exact`, `C18_self_violated`, `C15_moveAssign_violated`, `C69_self_move` | Holds for Variant and HybridVector, for copying an Optional, and for copying a SharedPointer unless there are exactly two owners (then undefined). All other classes lose what they hold: the object is destroyed (UniquePointer, Object, Mutex, Spin), forgotten for ever (Semaphore, Library, thread, socket, file streams, locker), the contents are gone (String, CircularArray) or the call is undefined (List, common Expected). Moving an Optional onto itself is left to its value's class. |
| C18 | Assigning one String to another copies it | partial | `C18_violated`, `C18_terminator_ub`, `C18_self_violated`, `C18_cstring_partial`, `C18_copy_partial`, `C18_move_partial`, `C18_default_target_ub`, `C18_grow_violated`, `C18_assign_exact` | False: operator=(const Me&) leaves length 0, overflows by one when the source length equals capacity, self-assignment empties. C18_assign_exact: copy assignment gives the source text exactly if the source is empty and the target has storage; self-assignment keeps the text exactly if it is empty and has storage. |
| C180 | A container that was moved from can be used like a new one | partial | `C180_vector_exact`, `C180_string_partial`, `C180_list_partial`, `C180_hybrid_violated`, `C02_append_to_moved_from_ub`, `C131_append_to_moved_from_ub` | Vector: exact. The source keeps its old capacity c with a null pointer, so a history works precisely if a call demanding room for more than c elements comes before any call that adds elements; otherwise the first addition writes through null. String: holds for histories without insert (C16). List: holds inside the supported region of C14, and the list that took over keeps its elements. HybridVector: heap storage as Vector; inline elements stay in the source, moved from. |
| C181 | A List can be used as a stack or a queue | partial | `C181_ends_exact`, `C181_front_stack`, `C181_back_stack_exact`, `C181_queue_violated`, `C181_queue_exact` | Decided exactly for all histories of end calls. Holds for a stack at the front; a stack at the back works but cannot be destroyed once it ran empty; a queue breaks at the first push after it ran empty. Addresses of destroyed nodes are never reused in the model. |
| C182 | Objects are put at addresses suitable for their type | partial | `Utils.Align.C182_block_exact`, `Utils.Align.C182_block_all_or_none`, `Utils.Align.C182_block_violated`, `Utils.Align.C182_node_exact`, `Utils.Align.C182_alignedObject_exact`, `Utils.Align.C182_alignObject_exact`, `Utils.Align.C182_array`, `Utils.Align.C182_optional`, `Utils.Align.C182_object`, `Utils.Align.C182_object_exact`, `Utils.Align.C182_object_check_exact` | Holds for Array, Optional and Object, and for elements in allocated memory exactly when the type's alignment is at most 16 (what malloc promises). For stricter types malloc may return an address at which no element is suitably aligned. AlignedObject accepts explicit alignments weaker than the type's, which do not suit it. Object's check is sufficient and refuses some types that would always fit. |
| C183 | Several Pkcs11Library objects work on the modules they name and do not disturb each other | partial | `Pkcs11.Several.C183_module`, `Pkcs11.Several.C183_mapped`, `Pkcs11.Several.C183_not_loaded_violated`, `Pkcs11.Several.C183_step_exact`, `Pkcs11.Several.C183_undisturbed_partial`, `Pkcs11.Several.C183_second_refused`, `Pkcs11.Several.C183_finalize_violated`, `Pkcs11.Several.C183_orphan_made`, `Pkcs11.Several.C183_orphan_forever` | Proved for all histories: the module in use is the loaded one or, if none could be loaded, the program's (C183_module), and it is in memory (C183_mapped); a call on another object ends the initialisation exactly if it finalises or destroys an object that says it uses the same module and the module agrees (C183_step_exact). Without finalize() by hand an object is never disturbed and is the only one using its module (C183_undisturbed_partial); a second one is refused (C183_second_refused). False: an object whose module could not be loaded initialises the program's (C183_not_loaded_violated); finalize() keeps the status, so the destructor finalises the module under another object (C183_finalize_violated); after a failing C_GetInfo the module stays initialised and no object can use it until it is unmapped (C183_orphan_made, C183_orphan_forever). |
| C184 | Static objects of the program can use the library | partial | `Own.Statics.C184_exact`, `Own.Statics.C184_partial`, `Own.Statics.C184_callbacks`, `Own.Statics.C184_violated`, `Own.Statics.C184_two_violated` | Exact: the program ends well iff for each of the library's objects with a destructor the first static object that uses it in its constructor precedes all that use it in their destructors, or no constructor uses it and no destructor does (one may if main does not) (C184_exact). So it holds if every static object uses in its constructor what it uses in its destructor (C184_partial) and for the tables of functions (C184_callbacks). False otherwise: a static registry or Pkcs11Library that is first used in main uses the destroyed catcher or token context in its destructor (C184_violated, C184_two_violated). |
| C185 | A capacity a string reports is really there | partial | `StrBytes.C185_resize_partial`, `StrBytes.C185_byte_characters`, `StrBytes.C185_resize_violated`, `StrBytes.C185_characters_lost`, `StrBytes.C185_append_ub`, `StrBytes.C185_zero_violated`, `StrBytes.C185_first_ub`, `StrBytes.C185_reserve_ignored`, `StrBytes.C185_reserve_partial` | True as long as the capacity times sizeof(character) fits a machine word. Violated beyond: a wide string then reports a capacity its block does not have (and loses characters), or loses its block altogether, after which even its destructor is undefined; reserve silently does nothing when capacity() + n wraps. |
| C186 | Functions of the library report that memory ran out | partial | `NoMemory.C186_open_partial`, `NoMemory.C186_open_ub`, `NoMemory.C186_slots_violated`, `NoMemory.C186_interfaces_violated`, `NoMemory.C186_interfaces_partial`, `NoMemory.C186_write_exact` | Without memory: constructing a Library is undefined, getSlotIdList and a RamStream write that does not fit never return, and the interface list is reported as OK and empty. With the memory named in the theorems each does what it should. (The mutex callback createMutex reports HOST_MEMORY, C93; smart pointers are null, C29 and C30.) |
| C187 | Comparing two iterators compares where they stand | partial | `IterStack.C187_moves`, `IterStack.C187_equality_exact`, `IterStack.C187_const_violated`, `IterStack.C187_const_greater`, `IterStack.C187_order_partial`, `IterStack.C187_order_exact`, `IterStack.C187_difference_exact`, `IterStack.C187_bidirectional_violated`, `IterStack.C187_mixed_violated`, `IterStack.C187_containers_violated`, `IterStack.C187_wrapped`, `IterStack.C187_shared_base`, `IterStack.C187_direction`, `IterStack.C187_wrapped_order`, `IterStack.C187_uninstantiable` | Moving holds for every stack; equality and order hold for a non-const left operand of the same type (order only with an even number of reverse adaptors). Otherwise the comparison silently goes through operator bool: any two iterators are equal if the left one is const, or if their types differ (begin() and cend()), or, by order, if they are list iterators; the distance of list iterators is always 0. |
| C188 | An iterator reads what it stands at; a const one does not let it be written | partial | `IterStack.C188_const_kept`, `IterStack.C188_deref_exact`, `IterStack.C188_buried_violated`, `IterStack.C188_const_object`, `IterStack.C188_pointer_to_const`, `IterStack.C188_index`, `IterStack.C188_index_violated`, `IterStack.C188_index_const_violated`, `IterStack.C188_index_constIter` | *it never loses const and it[n] reads the right element wherever they compile. Iterator::operator[] is ambiguous and never compiles, Iterator over a pointer to const is ill-formed, a non-const adaptor of a const iterator cannot be read, and ConstReverseIterator::operator[] gives write access or does not compile. |
| C189 | A module shared by several library objects is called in the order it requires | partial | `C189_shared_partial`, `C189_tidy_partial`, `C189_undisturbed`, `C189_takeover`, `C189_finalize_violated`, `C189_info_violated`, `C189_refused_violated` | Holds for programs that leave finalisation to the destructors (and, for unloading, a module whose C_GetInfo and C_Finalize succeed). A finalize() by hand leaves the object usable; its destructor later finalises the module under another object. A failing C_GetInfo locks every object out and the module is unloaded initialised. A refused object answers 'no slots' as a success. |
| C19 | String insert and erase behave like sequence insert and erase | partial | `C19_insertRange_diverges`, `C19_fresh_diverges`, `C19_insert_empty_ub`, `C19_insertRange_partial`, `C19_char_erase_partial`, `C19_insertText_exact`, `C16_history_exact` | False: range insert that does not fit recurses for ever; single insert and erases are right for strings with storage. Exact: insertion of a text into a string just made returns after reserve(n) exactly if the text is not longer than n; whole histories exactly in C16_history_exact. |
| C190 | A HybridVector used as a stack takes constant time per call on average | partial | `HCost.C190_same`, `HCost.C190_step_exact`, `HCost.C190_stack_partial`, `HCost.C190_erase_violated`, `HCost.C190_pop_rounds` | True for pushBack and popBack: at most seven elements carried per element pushed, none up to N pushes. False when the last element is taken out with erase: erase goes back to the array as soon as fewer than N elements are left, and the next push but one leaves it again, so every round of four calls around the capacity asks for a block and carries 2N-1 elements. The exact work of every call is stated (C190_step_exact). |
| C191 | What is written into a file through streams is read back through streams | partial | `C191_partial`, `C191_same_description_violated`, `C191_two_writers_violated` | Holds for every history if all writers share one open file description and readers use others. Fails otherwise: a reader on the writer's description never receives a byte, and writers that opened the file separately overwrite each other (both transfers survive exactly if one is empty). O_APPEND, truncation and the circular overloads (C68) are not in this model. |
| C192 | A serialised message arrives as the values that were sent | partial | `Transport.C192_encoded`, `Transport.C192_delivered`, `Transport.C192_incomplete_ub`, `Transport.C192_tcp_partial`, `Transport.C192_ram`, `Transport.C192_file`, `Transport.C192_short_send_violated`, `Transport.C192_order_exact`, `Transport.C192_pipe`, `Transport.C192_udp` | Every message that has arrived entirely is deserialised to the values sent, over any carrier that delivers a beginning of what was handed over; instances for TCP, UDP datagrams, RamStream, pipes and files. Fails if the receiver deserialises before the message is complete (no bounds check: undefined behaviour) and if a send takes less than it was given and the sender looks at the status only. Read with the other wire order a message gives the byte-reversed numbers. Memory beyond the bytes received is arbitrary in the positive theorems. |
| C193 | A range visits what it was made from | partial | `RangeM.C193_each`, `RangeM.C193_nothing_else`, `RangeM.C193_each_exact`, `RangeM.C193_two_arrays_ub`, `RangeM.C193_array`, `RangeM.C193_pointer_exact`, `RangeM.C193_null_exact`, `RangeM.C193_container`, `RangeM.C193_copy`, `RangeM.C193_view`, `RangeM.C193_default_ub`, `RangeM.C193_bytes`, `RangeM.C193_bytes_store`, `RangeM.C193_iterators`, `RangeM.C193_forward`, `RangeM.C193_reverse_violated`, `RangeM.C193_const_container` | Everything but two points: a range made without arguments holds indeterminate pointers (a loop over it is undefined), and makeReverseRange / makeConstReverseRange compile for no container of the library, because they return a Range<ConstIterator> for a Range<ReverseIterator>. |
| C194 | Every PKCS#11 attribute can be wrapped with its value | partial | `PkAttr.C194_no_wrapper_violated`, `PkAttr.C194_table`, `PkAttr.C194_every_enumerator`, `PkAttr.C194_meant_exact`, `PkAttr.C194_untyped_violated` | The table of value types is consistent and complete, but the wrapper compiles for no attribute: its assertion is the wrong way round (it demands void), and void attributes need a member of type void. With the assertion meant, exactly the 22 attributes with a named type compile. |
| C195 | A Vector of Strings keeps its texts through every insertion and removal | partial | `ElemVec.C195_append`, `ElemVec.C195_insert_ub`, `ElemVec.C195_insert_exact`, `ElemVec.C195_insert_move_exact`, `ElemVec.C195_emplace`, `ElemVec.C195_erase`, `ElemVec.C195_eraseRange_exact`, `ElemVec.C195_insertRange_ub`, `ElemVec.C195_history_partial`, `ElemVec.C195_insertRange_end`, `ElemVec.C195_insert_generic`, `ElemVec.C195_erase_generic`, `ElemVec.C195_eraseRange_generic`, `ElemVec.C195_reserve_generic`, `ElemVec.C195_copy`, `ElemVec.C195_insertRange_generic`, `ElemVec.C195_growth`, `ElemVec.C195_end_exact`, `ElemVec.C195_eraseRange_empty`, `ElemVec.C195_resize_generic`, `ElemVec.C195_sized`, `ElemVec.C195_assignOther_exact`, `ElemVec.C195_resize_exact`, `ElemVec.C195_resize_violated`, `ElemVec.C195_assignOther_grow` | False for insert in front of an element and for erasing an inner range. insert(it, const String &) and range insertion there are always undefined, whatever vector, position and string: they copy-assign to a string without storage. insert(it, move(s)) is right with a free cell and undefined when the vector is full (the retry passes s as an lvalue). erase(b, e) is right if nothing follows the range and otherwise move-assigns to destroyed strings. Appending by copy or move, emplace, erase(it), popBack and clean are right, one by one and in every history from an empty vector. For every element class: an insertion in front of an element has the outcome of one copy assignment to a default-constructed object (insert) or one copy construction (emplace), growing keeps every element, and erasing an inner range is undefined even if all the class's operations are right. Copying a vector of strings keeps the texts. resize(n) of a vector of strings appends empty strings, or does nothing if the capacities grow through n itself (resize(8) of an empty vector leaves it empty); assigning a non-empty vector of another type to one that holds elements assigns to destroyed objects. insert(it, &&) as written compiles for no element type (Vector.hpp 785 calls placementNew with one argument); the theorems about it read that line as emplaceNew, as in insert(it, const &). |
| C196 | A fixed-capacity Array of Strings keeps its texts | partial | `ElemArr.C196_full`, `ElemArr.C196_append`, `ElemArr.C196_insert_ub`, `ElemArr.C196_place`, `ElemArr.C196_remove`, `ElemArr.C196_copy`, `ElemArr.C196_move`, `ElemArr.C196_eraseRange_empty` | False for copy insertion in front of an element, of one string or of a range that fits (always undefined: copy assignment to a string without storage), and for erasing an inner range (move assignment to destroyed strings). Appending, insert by move, emplace, erase(it), popBack, erasing up to the end, copy and move construction and assignment are right; a full array ignores insertions; a moved-from array keeps its size and holds empty strings. |
| C197 | Every copy of the library in a Windows process gets its events | partial | `C197_make_exact`, `C197_atom_exact`, `C197_given_back`, `C197_exclusive`, `C197_second_violated`, `C197_foreign_violated`, `C197_end_exact`, `C197_stale_violated`, `C197_program_keeps` | A thread that gets no window leaves nothing behind and stores an error that cannot be mistaken for an atom; a thread that has ended has left neither window nor class. But the class name is fixed and registered for the whole process: while one copy of the library has its window, or the program a class of the name, every other copy gets none and refuses every socket. A refused thread that is ended from outside unregisters the class by name, whoever owns it. After the end the member keeps the handle of the destroyed window, so sockets are not refused but passed on with it. |
| C198 | A HybridVector of Strings keeps its texts whatever the storage | partial | `ElemHyb.C198_useVector`, `ElemHyb.C198_useArray`, `ElemHyb.C198_append`, `ElemHyb.C198_insert_ub`, `ElemHyb.C198_insert_move_exact`, `ElemHyb.C198_insert_end`, `ElemHyb.C198_emplace`, `ElemHyb.C198_remove`, `ElemHyb.C198_storage`, `ElemHyb.C198_history_partial` | Proved: both changes of storage keep every text in order; appending by copy or move, emplace, erase(it), popBack and erasing a range at the end do what they do to a list, in either storage and across the change; which storage is used after each call; every history of these calls from a default constructed container. Violated: insert(it, const String&) in front of a string is undefined in every storage; insert by move is undefined in a full vector and in a full array except at its beginning (at its end too); erasing an inner range is undefined. Not modelled: arguments that are elements of the container, allocation failure. insert(it, &&) as written compiles for no element type, because Vector's does not (Vector.hpp 785); the theorems about it read that line as emplaceNew. |
| C199 | Strings held by an Optional, a StaticArray or an InitializerList are the strings they were given | partial | `ElemHold.C199_optional_first`, `ElemHold.C199_optional_copies`, `ElemHold.C199_optional_move`, `ElemHold.C199_optional_copy_exact`, `ElemHold.C199_optional_copy_violated`, `ElemHold.C199_optional_none_violated`, `ElemHold.C199_optional_sound`, `ElemHold.C199_array_copy_ub`, `ElemHold.C199_array_assign_violated`, `ElemHold.C199_array_sound`, `ElemHold.C199_array_assign_exact`, `ElemHold.C199_list_exact`, `ElemHold.C199_list_sound` | Setting an empty Optional (copy or move), copy and move construction, and moving into a filled one are right. Copying a string into a filled Optional is right exactly if the text is empty and the held string has storage; otherwise the text is lost or the write is out of bounds. Assigning an empty Optional keeps the old text. Copying a StaticArray of at least one String, or making one from an initializer list, is undefined: copy assignment onto default constructed strings; copy assignment of a StaticArray never changes a place after the first, whatever the elements. An InitializerList of Strings is defined exactly if no argument is a named string. For element classes whose assignments work the exact results are proved for all holders. Move operations of a StaticArray cannot be instantiated and are not modelled. |
| C20 | String concatenation contains both operands | partial | `C20_violated`, `C20_concatRaw_partial`, `C20_unimplemented_violated`, `C20_subAt_partial`, `C20_mutable_violated`, `C20_concat_exact` | False: operator+=(string) is empty, so string+string drops the right operand; string + C string is right. C20_concat_exact: string+string, C string+string and += of a string are right exactly if the right operand is empty. |
| C200 | A List of Strings keeps its texts; what is moved in is taken over | partial | `ElemList.C200_read`, `ElemList.C200_step_partial`, `ElemList.C200_history_partial`, `ElemList.C200_move_copies`, `ElemList.C200_copy_partial`, `ElemList.C200_init_partial`, `ElemList.C200_step_exact`, `ElemList.C200_history_exact`, `ElemList.C200_copy_exact`, `ElemList.C200_move_exact` | True for every call C14 supports: the list only copy-constructs strings, which is right for every string, so no text is ever lost; the calls excluded are those that fail for every element class (C14: positional calls on an empty list, removing the last element one by one). False for rvalue arguments: every function taking one copies it and the argument keeps its text and storage (C200_move_copies). Copies and initializer lists: not empty ones (C15). step_exact, history_exact, copy_exact and move_exact state exactly which calls, copies and moves of lists of strings work. |
| C201 | A CircularArray of Strings is a bounded queue of texts | partial | `ElemRing.C201_read`, `ElemRing.C201_push`, `ElemRing.C201_push_move`, `ElemRing.C201_step_partial`, `ElemRing.C201_clean_ub`, `ElemRing.C201_history_exact`, `ElemRing.C201_copy_exact`, `ElemRing.C201_move_source`, `ElemRing.C201_made_destroyed_twice`, `ElemRing.C201_destroyed_once` | True for histories of pushes, pops and clean on an empty array (history_exact states exactly which histories are defined), for handing strings over with and without room, and for the destruction of arrays not made from another. False: clean of an array holding a string is undefined; copying works exactly while the oldest string is at the start of the storage; a moved-from array keeps its size, holding empty strings; destroying a non-empty array made by copying or moving destroys its strings twice. |
| C202 | A Vector of Vectors keeps its inner sequences | partial | `C202_history_exact`, `C202_sequences_partial`, `C202_append_to_stored_copy`, `C202_given_away` | Exact for all histories of eleven kinds of calls given that memory can be had. The outer vector keeps its inner sequences; appending to a stored copy of a one-element vector never returns, pushing an own element when full is undefined, and a vector moved in cannot be appended to afterwards. insert and erase do not link for vectors of vectors (same-type assignment is declared but not defined). |
| C203 | A Vector of UniquePointers destroys each object once, when it leaves the vector | partial | `C203_history_exact`, `C203_destroyed_once_partial`, `C203_erase_range_ub` | Exact for all histories given that memory can be had: every object is destroyed once, in the order of removal. Erasing a range that is not the end is undefined, and appending after reserve(1) is used up never returns. insert does not compile for unique pointers (insert(it, &&) calls insert(it, const &)). |
| C204 | A fixed-capacity Array of UniquePointers destroys each object once, and makes no others | partial | `C204_history_exact`, `C204_destroyed_once_partial`, `C204_extra_object` | Exact for all histories: every object is destroyed once, in the order of removal, and a full array leaves the object with the pointer it refused. Violated: insert and emplace in front of an element make and destroy one extra default constructed object (C204_extra_object); erasing a range that is not the end is undefined. |
| C205 | A CircularArray of UniquePointers is a bounded queue that owns its objects | partial | `C205_history_exact`, `C205_destroyed_once`, `C205_moved_ub` | Proved for every history on an array that was not made from another one, destructor included. Violated for an array made by moving from one in which something waits: its destructor and that of its inner vector both destroy the pointers (C205_moved_ub). clean does not compile for pointers that cannot be copied. |
| C206 | A HybridVector of UniquePointers destroys each object once, whatever the storage | partial | `C206_history_exact`, `C206_destroyed_once_partial` | Exact for all histories, destructor included: places, pointers, objects made and destroyed in order. Violated only in that erasing a range that is neither empty nor the end is undefined, in either storage. Not modelled: built-in capacity 0, allocation failure; insert (does not compile, Vector.hpp 785) and emplaceBack with arguments (forward without its template argument does not compile). |
| C207 | A vector of shared pointers keeps its objects exactly as long as somebody points at them | partial | `C207_history_exact`, `C207_copied_in_dangles`, `C207_moved_in_leaks`, `C207_alive_partial`, `C207_by_value_destroys`, `C207_nothing_destroyed` | The property is false of the code, both ways: the counter of a new object is 0, so an object whose pointer was put in by copy is destroyed as soon as the original goes (C207_copied_in_dangles: using or removing the element is then undefined), and one whose pointer was moved in is never destroyed when removed (C207_moved_in_leaks). Passing the vector by value destroys every object in it (C207_by_value_destroys). C207_history_exact states what every such history does, including which calls are undefined; C207_alive_partial proves what remains: with moves, uses and removals only, every element's object is alive. clean() (all the destructor does besides freeing) destroys nothing either (C207_nothing_destroyed). Not modelled: the other calls of Vector. |
| C21 | HybridVector behaves like a sequence across its storage switch | partial | `C21_history_partial`, `C21_insert_when_full_violated`, `C21_insertRange_violated`, `C21_empty_violated`, `C21_erase_to_empty`, `C21_unit_capacity_diverges`, `C21_erase_storage`, `C21_step_exact`, `C21_history_exact` | Refines the sequence for every history of supported calls, all inline capacities; insert into a full inline array away from the front, and insert/iterate on an empty container are refuted; capacity-1 divergence proved. |
| C22 | Byte-order conversion is reversible and exact | proved | `C22_byte_order`, `C22_signed` | All sizes, values, host and wire orders. |
| C23 | Serialization round trip | proved | `C23_round_trip`, `C23_full_part`, `C23_overflow_ub` | All hosts, orders, field sequences, parts; exact layout, framing and round trip; no-room case is an overflow. |
| C24 | Partial-width values address exactly the requested bytes | proved | `C24_partial_width`, `C24_partial_width_write` | Exact bytes in both orders and both directions, reading and writing; outside parts are ub. |
| C25 | Integer to string conversion is the canonical decimal representation | partial | `C25_buffer_size`, `C25_to_string_partial`, `C25_one_digit_violated`, `C25_least_violated`, `C25_least_narrow_violated`, `C25_exact` | Canonical decimal text for every value of every integer type up to 64 bits except 0..9 and the least signed values; those are shown undefined (heap overflow, signed overflow) or wrong. |
| C26 | Wide integers round-trip through primitive integers | proved | `C26_assign_value`, `C26_round_trip`, `C26_convert_value`, `C26_complement` | All widths, both host byte orders, all four integer sizes; also when the wide integer is narrower than the primitive. |
| C27 | IPv4 address formatting and parsing are inverse | partial | `C27_format_in_bounds`, `C27_round_trip_partial`, `C27_middle_zero_violated`, `C27_exact` | Round trip and dotted decimal for all addresses without octets 100..109 / 200..209; for those the middle zero is dropped (proved). Formatting never leaves the buffer for any 16-bit contents. |
| C28 | IPv4 parsing accepts exactly well-formed addresses and reads only the string | partial | `C28_accepted_iff`, `C28_parts`, `C28_undefined_iff`, `C28_well_formed_partial`, `C28_rejected`, `C28_terminates`, `C28_large_octet_violated`, `C28_empty_component_violated`, `C28_few_components_violated`, `C28_valid_iff`, `C28_localhost`, `C28_default_address`, `C28_ctor` | Exact characterisation of acceptance and of undefined behaviour for all strings; well-formed addresses are accepted with the right octets; the converse fails (fewer components, octets modulo 65536, empty components read through null). |
| C29 | UniquePointer destroys its object exactly once | proved | `C29_unique_owner`, `C29_destroyed_once`, `C29_never_after`, `C29_move_transfers` | Invariant over all histories of creation, moves, clean, use and destruction, any number of variables. |
| C30 | SharedPointer keeps the object alive exactly as long as it has owners | partial | `C30_destroyed_while_owned`, `C30_unowned_never_destroyed`, `C30_drop_second_owner`, `C30_dangling_ub`, `C30_sole_owner_leaks`, `C30_shared_alive_partial`, `C30_default_ctor_ub`, `C30_clean_counts_twice`, `C30_self_assign_ub`, `C30_copy_null_ub`, `C30_default_useless`, `C30_deref_iff` | The code violates the property in every execution: the counter starts at 0, so the object is destroyed when the second-to-last owner goes and never when the last one goes; proved for all histories. Holds: an object with two or more owners is alive. |
| C31 | Variant holds exactly the value last stored in it | partial | `C31_holds_last_partial`, `C31_history_partial`, `C31_destroyed_once_partial`, `C31_get_exact`, `C31_current_index`, `C31_equal_exact`, `C31_copy_nonconst_moves`, `C31_copy_nonconst_violated`, `C31_assign_unset_ignored`, `C31_assign_unset_violated`, `C31_set_own_value_ub`, `C31_get_by_index_ub`, `C31_get_by_index_unset_ub` | Holds over every history that avoids three operations; each of those is proved wrong: copying a non-const variant moves it, assigning an unset variant is ignored, setting a variant to its own value uses a destroyed object. get<INDEX>() is unchecked. |
| C32 | Optional assignment makes the target equal to the source | partial | `C32_holds_partial`, `C32_bool_exact`, `C32_get`, `C32_no_double_destroy`, `C32_destroyed_once_partial`, `C32_assign_empty_ignored`, `C32_init_leaks`, `C32_init_filled_leaks` | Holds unless an empty optional is assigned to a filled one (proved: ignored) or init() is used (proved: never sets the filled flag, value leaks). |
| C33 | Expected (common) stores one of result/error with correct lifetimes | partial | `C33_holds_last_partial`, `C33_one_handler`, `C33_exactly_one`, `C33_no_double_destroy_partial`, `C33_no_leak_partial`, `C33_copy_assign_ub`, `C33_assign_unknown_ub`, `C33_self_move_ub`, `C33_move_leaks`, `C33_handler_leaks` | Handlers: exactly one is called. Lifetimes: copy assignment to a set object destroys twice, moves and non-const handlers leak (both proved in general); the rest holds. |
| C34 | Expected (variant based) invokes exactly the matching handler | partial | `C34_exactly_matching_handlers`, `C34_calls_kind`, `C34_stores_last_partial`, `C34_lifetimes`, `C34_assign_error_lost`, `C34_copy_moves_source`, `C34_assign_empty_ignored`, `C34_done_clears` | Exactly the matching handlers run, in order, for every chain. Assigning a const error loses it, copying moves out of the source (both proved). |
| C35 | Type-erased Object destroys its value exactly once | partial | `C35_holds_ordinary`, `C35_destroyed_once_ordinary`, `C35_holds_partial`, `C35_destroyed_once_partial`, `C35_overaligned_move_ub`, `C35_get_exact`, `C35_fits_in_array`, `C35_check_exact`, `C35_check_refuses_fitting` | Full property for all types no more strictly aligned than AlignedAsType; for stricter types it holds exactly when moves keep the offset, otherwise destructor and access are proved undefined. move<T>() does not compile and is not modelled. |
| C36 | Event queue is a bounded FIFO under concurrency | proved | `C36_linearizable`, `C36_no_fault`, `C36_no_deadlock`, `C36_exactly_once`, `C36_push_before_init_ub` | For a queue after its first init and capacity > 0, any number of threads, any interleaving of single accesses: linearizable to a bounded FIFO, no fault, every call can complete, each pushed value popped at most once and in order. Pushing before init is undefined behaviour (C36_push_before_init_ub). |
| C37 | Registrar loses and duplicates no event | partial | `C37_lists_partial`, `C37_clear_empties_partial`, `C37_exactly_once_partial`, `C37_clear_stops_at_invalid`, `C37_push_before_add_ub`, `C37_concurrent_add_loses_event`, `C37_valid_meaning`, `C37_late_init_loses` | Proved for registered kinds and valid values. Refuted in general: clear stops at a queued invalid value, a push before add is undefined behaviour, and two concurrent adds can lose a queued event. |
| C38 | Event delivery from the signal handler cannot deadlock | partial | `C38_deadlock`, `C38_completes_partial`, `C38_queue_intact` | Refuted: a signal arriving while its thread is inside a queue method deadlocks that queue for ever (C38_deadlock, at every such point). Proved: otherwise delivery completes, and the queue itself stays a correct FIFO. |
| C39 | Shared counter loses no updates | proved | `C39_linearizable`, `C39_exact`, `C39_reads`, `C39_no_deadlock` | For an unsigned value of any width w and any number of threads: linearizable modulo 2^w, exact final value, reads between, no deadlock. |
| C40 | Scoped lockers release what they acquired | partial | `C40_locker_scope`, `C40_locker_exclusive`, `C40_unique_locker_partial`, `C40_destroy_exact_partial`, `C40_no_ub_partial`, `C40_move_of_holder`, `C40_move_onto_holder`, `C40_self_move`, `C40_copy_double_release`, `C40_unlock_foreign`, `C40_unlock_construction`, `C40_relock_blocks`, `C40_step_exact`, `C40_reach_good` | Locker: proved. UniqueLocker: proved while it is moved/copied only when not holding; refuted for moves of a holder, moves onto a holder, self-moves, copies, unlock of a non-holder and UNLOCK construction. C40_step_exact says for every call exactly when it goes wrong. |
| C41 | Condition variable notify wakes a waiter and returns | partial | `C41_blocked_partial`, `C41_notify_wakes_partial`, `C41_no_early_return_partial`, `C41_notify_without_waiters`, `C41_one_waiter_partial`, `C41_notify_hangs`, `C41_lock_lost`, `C41_tryWait_frees`, `C41_counter_overflow`, `C41_tryWait_exact`, `C41_tryWait_excludes`, `C41_notify_retries`, `C41_again_violated`, `C41_free_violated`, `C41_lock_not_retaken` | Proved for at most 255 threads without tryWait (blocking, wake-up) and for one waiter and one notifier (completion). Refuted: with two or more waiters notify may never return; one notify may free the lock for good; tryWait on a fresh variable frees the lock; the 256th waiter is not blocked. |
| C42 | Every socket is closed exactly once | partial | `C42_base_partial`, `C42_client_partial`, `C42_base_once_partial`, `C42_move_closes_stdin`, `C42_assign_leaks`, `C42_failed_socket_reported_valid`, `C42_accepted_valid_iff`, `C42_reconnect_partial`, `C42_reconnect_closes_stdin`, `C42_history_exact` | Exactly-once holds on histories that avoid assignment over a held socket and destruction of a moved-from NetworkBase; both excluded cases are proved to violate the property from every state (moved-from destructor closes descriptor 0; assignment leaks). C42_history_exact covers every history: when something foreign is closed, which sockets are lost, when each is closed exactly once. |
| C43 | Dynamic library handles are closed exactly once | partial | `C43_library_partial`, `C43_moved_from_ub`, `C43_assign_leaks`, `C43_cell_leaks`, `C43_cells_exact`, `C43_step_exact`, `C43_defined_exact`, `C43_lost_exact` | Exactly-once holds on histories that do not touch moved-from objects or assign over loaded ones; destroying a moved-from Library dereferences null, assignment leaks, proved generally. C43_step_exact: these are the only failing calls. C43_lost_exact: over all histories exactly the libraries assigned over are lost. |
| C44 | Thread primitives release their native object exactly once | partial | `C44_native_partial`, `C44_move_ctor_ub`, `C44_semaphore_assign_leaks`, `C44_semaphore_move_destroys_nothing`, `C44_looks_like_initializer`, `C44_step_exact`, `C44_defined_exact`, `C44_lost_exact` | Exactly-once holds for Mutex/Spin without move construction and Semaphore without assignment over a held one, given the initialised bytes differ from the initializer constant; each excluded case is proved to violate it. C44_step_exact: these are the only failing calls. C44_lost_exact: the exact loss over all histories for every C library (any initial bytes). |
| C45 | RamStream is a FIFO byte stream | proved | `C45_ram_stream`, `C45_read_is_written`, `C45_alloc_failure_diverges` | For every history of reads and writes over linear and circular ranges, provided allocation succeeds; when it fails the vector under the stream diverges (third theorem). |
| C46 | Splitting a circular range covers it exactly | partial | `C46_split`, `C46_covers_iff`, `C46_not_wrapping_violated` | The split is right exactly for ranges that wrap (e < b); for every other range the pieces cover the whole buffer in addition. |
| C47 | Writer accepts the longest prefix that fits | proved | `C47_putData`, `C47_history`, `C47_full_refuses` | putData stores exactly the longest prefix that fits and returns its length, in every history; flush leaves the buffer alone. |
| C48 | Range comparison utility decides equality | partial | `C48_ranges_exact`, `C48_ranges_partial`, `C48_prefix_violated`, `C48_bytes` | Object comparison fully proved; range comparison decides equality only for ranges of the same length (a prefix counts as equal). |
| C49 | alignedPointer returns the least aligned address not below the input | partial | `C49_least_partial`, `C49_null`, `C49_middle_ub`, `C49_end_null`, `C49_exact` | Least aligned address for all alignments whenever it lies in the same half of the address space; at the two ends the signed addition overflows or wraps to null. |
| C50 | Bit constants denote their bit | partial | `C50_upperedBit`, `C50_constants_partial`, `C50_swapped`, `C50_masks`, `C50_minimalType`, `C50_upperedBit_beyond`, `C50_types` | BIT64_61 and BIT64_63 are exchanged; everything else proved. |
| C51 | Cyclic shift is a rotation | partial | `C51_narrow`, `C51_wide_partial`, `C51_multiple_ub`, `C51_argument_width_violated`, `C51_signed_negative_ub`, `C51_inverse`, `C51_binary`, `C51_signed_exact`, `C51_signed_narrow`, `C51_int_argument_violated` | Rotation for 8/16-bit types, and for 32/64-bit types unless the shift is a multiple of the width (undefined) or the argument type is narrower (wrong result); an int count for 8/16-bit types does not rotate (0 or undefined to the right, plain shift to the left). Signed types: undefined for negative values, right for other 8/16-bit values, for wider ones exactly if the left shift stays below 2^width. The header itself does not compile (IsIntegralType is declared nowhere, all members are private); the theorems are about the operators' bodies as written. |
| C52 | PKCS#11 mutex wrapper pairs lock with unlock and destroys once | partial | `C52_contexts_partial`, `C52_unlock_never_called`, `C52_unlock_locks`, `C52_missing_reported`, `C52_missing_destroy_ub`, `C52_assign_leaks`, `C52_moved_from_destroys_null`, `C52_construct_exact`, `C52_destroy_exact` | unlock() calls the lock callback (proved: no execution ever calls the unlock callback); contexts are destroyed exactly once when all callbacks are given and nothing is assigned over. |
| C53 | Range copy algorithms copy exactly the common prefix | partial | `C53_copy_partial`, `C53_copy_overlap`, `C53_copy_short_ub`, `C53_count`, `C53_foreach` | copy has no output length: too short a destination is overrun; overlapping forward copies repeat elements. |
| C54 | Library path is directory, separator, prefix, name, suffix | proved | `C54_path` | For every directory, name, prefix, suffix and buffer size. |
| C55 | Vector operations accept the vector's own elements as arguments | partial | `C55_push_own_partial`, `C55_push_own_full_ub`, `Vec.C55_insert_own`, `Vec.C55_insert_own_violated`, `Vec.C55_insertRange_own`, `Vec.C55_insertRange_own_full_ub` | Own-element arguments work without reallocation for append, for sources before the insert position and, for types whose moved-from value stays, at it; otherwise violated. Own ranges are settled case by case (exact contents); every reallocating call reads freed storage (all proved). |
| C56 | A Vector destroys every element it created | partial | `C56_no_leak_partial`, `C56_erase_leaks`, `C56_exact`, `C56_balanced_partial`, `C56_emplace_violated`, `C56_reserve_calls` | Exact: objects constructed = objects destroyed + one per erase(it) of an inner element + one per emplace before an existing element (constructed over without destruction). Holds for histories with neither. erase(it) of an inner element leaves the object in the freed storage (proved). |
| C57 | Copies of a fixed-capacity vector hold the source's contents | proved | `C57_static_vector_copies` |  |
| C58 | Erasing through reverse iterators removes exactly the designated elements | proved | `C58_erase_reverse` | Range erase stated for trivially assignable elements (see C05 for the others). |
| C59 | CircularArray move construction keeps the queue | proved | `C59_move_ctor` | For every represented state (Rep), which every history reaches (C09). |
| C60 | CircularArray destroys each element exactly once | partial | `C60_destruction_partial`, `C60_copied_destroyed_twice`, `C60_clean_leaks`, `C60_exact` | Holds for every array used from its construction on; an array that was copied or moved from a non-empty one can never be destroyed (exact, whatever is pushed, popped or cleaned afterwards); clean leaks. |
| C61 | CircularArray backward iteration reverses forward iteration | proved | `C61_reverse_iteration` |  |
| C62 | List releases every node exactly once | partial | `C62_no_leak_partial`, `C62_violated`, `C62_exact` | For every history inside ListSpec.safe destruction releases all nodes; a list emptied by popBack cannot be destroyed. C62_exact: after any history of calls that leave a working list and one more valid call, destruction releases every node exactly if that call is not one of popBack of the only element, inserting into an empty list, erasing [end, end) of a list with elements. |
| C63 | Compile-time byte reversal agrees with the run-time one | partial | `C63_compile_time_partial`, `C63_compile_time_signed_violated` | Unsigned variants proved; the signed variants call themselves for ever (refuted). |
| C64 | Signed values keep their value in a wide integer | partial | `C64_signed_value_partial`, `C64_negative_violated`, `C64_exact` | Holds for non-negative values; every negative value read through a wider signed type changes by 256^sizeof (zero extension). |
| C65 | Constructing a wide integer from a value equals assigning it | partial | `C65_constructed_value_partial`, `C65_constructed_violated`, `C65_exact` | Low bytes are right for any memory; upper bytes stay indeterminate, so the number differs for some memory whenever the wide integer is wider. |
| C66 | operator~ of a wide integer leaves its operand alone | partial | `C66_complement_operand_violated` | Violated for every non-empty wide integer: operator~ flips in place. |
| C67 | Compound operators of wide integers compute | partial | `C67_compound_violated` | Violated: every compound operator is a stub that leaves the left operand unchanged. |
| C68 | File streams report exactly what a circular transfer moved | partial | `C68_read_partial`, `C68_read_end_violated`, `C68_short_read_violated`, `C68_read_outside`, `C68_write_partial`, `C68_write_end_violated`, `C68_read_linear_exact`, `C68_read_failed_violated`, `C68_read_second_violated`, `C68_write_linear_exact`, `C68_write_failed_violated`, `C68_write_second_violated`, `C68_short_write_violated`, `C68_read_report_exact`, `C68_write_report_exact` | Correct for wrapping ranges whose second piece is non-empty and full transfers; otherwise the theorems give the exact wrong results. |
| C69 | Streams close the descriptors they own exactly once | partial | `C69_streams_partial`, `C69_borrowed`, `C69_assign_leaks`, `C69_self_move`, `C69_continue_owning_closes`, `C69_named_pipe_ub`, `C69_named_pipe_leaks`, `C69_named_writer_default_ub`, `C69_named_writer_moved`, `C69_lost_exact` | Proved when owning streams are not assigned to and non-owners are not told to continue owning; otherwise leaks and foreign closes are proved. NamedPipeStream never closes its descriptors. C69_lost_exact allows assignments over owning streams and to themselves and says exactly which files stay open. |
| C70 | Memory and number utilities compute what they say | proved | `C70_copyBytes`, `C70_length`, `C70_extrema` | Exact results for all inputs. |
| C71 | Every started thread is joined exactly once, while its object exists | partial | `C71_thread_partial`, `C71_object_outlives_thread_partial`, `C71_join_then_drop_ub`, `C71_detach_ub`, `C71_move_ctor_ub`, `C71_failed_run_drop_ub`, `C71_failed_run_never_retried`, `C71_run_twice_leaks`, `C71_assign_leaks`, `C71_moved_thread_dangles`, `C71_defined_exact`, `C71_lost_exact` | Holds when idle objects are run, never joined or detached by hand and moved only onto idle ones. join() then destruction, detach(), move construction and destruction after a failed start are undefined; running twice and assigning over lose a thread (all proved). C71_defined_exact and C71_lost_exact give the exact set of defined calls and of lost threads over all histories. |
| C72 | The status of a thread primitive tells what the system did | partial | `C72_semaphore_status`, `C72_try_lock`, `C72_try_wait_partial`, `C72_try_wait_violated`, `C72_semaphore_value`, `C72_pthread_exact`, `C72_pthread_failure_hidden`, `C72_pthread_partial`, `C72_mutex_init_exact`, `C72_mutex_init_violated`, `C72_mutex_init_partial`, `C72_mutex_destroy_violated`, `C72_detach_exact` | Semaphores and try-locks report truthfully; pthread-based functions report the old errno instead of the returned code, so a failure with errno 0 is reported as success. |
| C73 | A socket addresses the host and port it was made for | partial | `C73_client_exact`, `C73_client_partial`, `C73_other_host`, `C73_server`, `C73_port_wraps`, `C73_get_port`, `C73_get_exact`, `C73_get_violated`, `C73_reconnect_localhost`, `C73_failed_reconnect_forgets` | Exact for every address: right unless an octet is 100..109 or 200..209 (another host). Reading back is wrong for every address with a non-zero octet after the first, so reconnect goes elsewhere. inet_addr is a parameter with its documented behaviour. |
| C74 | Waiting for a number of bytes ends when that many bytes are there | partial | `C74_wait_exact`, `C74_wait_partial`, `C74_overshoot_diverges`, `C74_closed_diverges` | The loop compares for equality: a result is right, but it never returns when more bytes than asked for arrive at once or the peer closes early. |
| C75 | Probing a TCP connection tells whether it is alive and leaves it as it was | partial | `C75_alive_exact`, `C75_broken_is_alive`, `C75_nonblock_lost`, `C75_alive_partial`, `C75_stays_nonblocking` | Orderly ends are recognised; any socket error counts as alive; a non-blocking descriptor is left blocking. |
| C76 | TCP transfers report the bytes moved | proved | `C76_transfer`, `C76_status_sticks` | Exact for all native outcomes. |
| C77 | A UDP server replies to the sender of the datagram last received | partial | `C77_reply_partial`, `C77_receive_exact`, `C77_send_after_wait_ub`, `C77_moved_server_wrong_descriptor`, `C77_dropped_server_ub` | Holds while servers stay in place and send follows receive; send directly after wait() dereferences null; after moving the server replies go through descriptor 0; after destroying it they are undefined. |
| C78 | Network notifications reach the server they belong to | partial | `C78_dispatch`, `C78_unknown`, `C78_delivery_partial`, `C78_data_lost`, `C78_connections_starve`, `C78_no_invented` | Dispatch is exact and nothing is invented; a data notification can be lost and connections can starve, as proved. |
| C79 | Disabling a descriptor undoes enabling it | partial | `C79_restore_exact`, `C79_nonblock_lost`, `C79_failed_enable_not_undone`, `C79_status`, `C79_enable`, `C79_status_exact` | Exact description of the flags after disable; O_NONBLOCK set beforehand is lost and a failed enable is not undone. |
| C80 | Asking a PKCS#11 library that is not initialised yields an error | partial | `C80_uninitialized_violated`, `C80_never_an_error`, `C80_initialized_partial`, `C80_initialize_result`, `C80_failed_initialize` | An uninitialised library answers 'nothing' or 0 slots instead of an error: errors are lost in Expected (C34). Values of an initialised library and the code returned by initialize are right. |
| C81 | The slot list is the module's slot list | partial | `C81_slot_list_empty`, `C81_slot_list_violated`, `C81_slot_list_partial` | The list is always empty (resize to the capacity does nothing, C04); the identifiers lie behind its end. |
| C82 | C_Initialize and C_Finalize come in pairs | partial | `C82_pairing_partial`, `C82_finalize_twice`, `C82_info_failure_leaks`, `C82_refused_finalize`, `C82_second_initialize`, `C82_history_exact` | Holds for careful histories; finalize() by hand leads to a second C_Finalize, and a failing C_GetInfo leaves the module initialised for ever. C82_history_exact: for every history and all answers, the module is called uninitialised exactly if, after an initialisation answered OK, a call uses it when its last change was a C_Finalize; destruction leaves it initialised exactly if it was and either no initialisation answered OK or C_Finalize refuses. |
| C83 | The interface list can be read | partial | `C83_interface_list_violated`, `C83_interface_list_empty`, `C83_no_list` | The call destroys the list it points to; the list was empty anyway. |
| C84 | Comparing AsIntegralType objects compares their values | partial | `C84_same_class_partial`, `C84_ge_le_violated`, `C84_mixed_partial`, `C84_mixed_exact`, `C84_eq_and_ne`, `C84_order_violated`, `C84_ge_le_mixed_violated`, `C84_bool` | >= and <= are > and <; with a wider operand == and != can both be true and the order is wrong. Exact characterisation for all values. |
| C85 | Arithmetic on AsIntegralType is arithmetic of the underlying type | partial | `C85_arith_exact`, `C85_arith_partial`, `C85_wraps`, `C85_u16_mul_ub`, `C85_div_partial`, `C85_div_reduced_ub`, `C85_shift_partial`, `C85_shift_reduced`, `C85_or`, `C85_shift_exact` | Exact results are right; undefined: large products of uint16, division by multiples of 2^n of a wider type; shift counts are reduced modulo 2^n. |
| C86 | Bitwise operators and conversions of byte_t act on exactly eight bits | proved | `C86_bitwise`, `C86_round_trip` | For all operand types and values. |
| C87 | Shifting a byte by any count shifts its eight bits | partial | `C87_shl_exact`, `C87_shift_partial`, `C87_shift_ub` | Right up to 24 (left) and 31 (right); beyond that undefined, exactly characterised. |
| C88 | A range of integer iterators visits the integers between its ends | proved | `C88_range`, `C88_each_once`, `C88_reversed` | Also proved what happens with reversed ends. |
| C89 | Integer iterators move by and measure distances exactly | partial | `C89_moves_partial`, `C89_u32_difference`, `C89_signed_difference_ub`, `C89_difference_exact` | Moves are exact; differences of uint32 iterators are unsigned and far-apart int32/int64 iterators overflow. |
| C90 | A slot object keeps denoting its slot | partial | `C90_identity_exact`, `C90_identity_violated`, `C90_identity_partial` | waitForSlotEvent lets the module write the event's slot into the object's own identifier; exact identifier after every history. |
| C91 | Slot functions report failure | partial | `C91_uninitialized_violated`, `C91_info_never_an_error`, `C91_initialized_partial` | On an uninitialised library waiting returns OK; the information never reports an error. On an initialised one the module's codes are returned. |
| C92 | Initialisation arguments survive copies and moves | partial | `C92_acceptable`, `C92_values_partial`, `C92_self_assign`, `C92_self_move_violated`, `C92_moved_from`, `C92_default` | Holds for different objects and every history; a self-move loses everything but the flags, and the two moves leave different sources. |
| C93 | The mutex callbacks manage real mutexes | partial | `C93_handles_partial`, `C93_refused`, `C93_lock_exact`, `C93_lock_failure_hidden`, `C93_dead_handle_ub` | Handles are managed correctly over all careful histories; native failures of lock and unlock are reported as OK. |
| C94 | The soft token follows the initialisation protocol | partial | `C94_codes_exact`, `C94_protocol_partial`, `C94_protocol_violated`, `C94_null_ub`, `C94_info_not_padded`, `C94_with_library`, `C94_values`, `C94_info_exact` | The token has no state: polite histories get the right codes, double or missing initialisation is not noticed, null function list pointers are dereferenced, named interfaces refused. |
| C95 | The soft token fills arrays as announced | partial | `C95_two_calls_partial`, `C95_small_buffer_ub`, `C95_count_not_written`, `C95_slots_not_written`, `C95_interfaces_exact` | The usual two calls work; an empty array is overrun, and the count is never written when an array is given. |
| C96 | A copied PKCS#11 structure equals its source | partial | `C96_copy_partial`, `C96_kdf_violated`, `C96_list3_violated` | Holds for 84 wrappers; NistSp800Hyphen108KdfParams forgets prfType and FunctionList3 forgets C_MessageDecryptInit. |
| C97 | A constructed PKCS#11 structure has defined members | partial | `C97_constructor`, `C97_all_set_partial`, `C97_kdf_violated`, `C97_default_exact`, `C97_default_violated` | Value constructors are right (one cannot set prfType); 67 of the 86 default constructors leave every member indeterminate. |
| C98 | Every entry of the soft token's function lists is the function of its name | partial | `C98_function_lists`, `C98_copied_list_violated` | Right as constructed; copying the version 3 list makes C_MessageDecryptInit indeterminate. |
| C99 | Array allocation creates and destroys whole arrays | partial | `Alloc.C99_call`, `Alloc.C99_history_partial`, `Alloc.C99_no_leak_partial`, `Alloc.C99_lvalue_args`, `Alloc.C99_rvalue_args_violated`, `Alloc.C99_overflow_ub`, `Alloc.C99_no_memory`, `Alloc.C99_result`, `Alloc.C99_destroy_null`, `Alloc.C99_destroy_too_many_ub`, `Alloc.C99_destroy_too_few`, `Alloc.C99_request_bound`, `Alloc.C99_history_exact` | Proved for all careful histories with count*sizeof(T) < 2^64. For greater counts the block is too small and construct is undefined; rvalue arguments are moved from by the first element only. |
<!-- end of outcome table -->

## What is modelled

| directory | source | granularity |
|-----------|--------|-------------|
| `Verif/Basic`, `Buf`, `Raw` | `Allocator/ObjectAllocator.hpp`, `ArrayAllocator.hpp` (as cells) | outcome monad, checked storage |
| `Verif/Vector`, `Array`, `Circular`, `List`, `String`, `Hybrid` | `Templates/{Vector,Array,CircularArray,CircularVector,List,String,HybridVector}.hpp`, `Iterator/{Operators,CircularIterator}.hpp` | each member function, every element access checked |
| `Verif/Bytes`, `Numbers` | `ByteOrder.hpp`, `Serialization/*`, `StringConvertions.hpp`, `WideInt.hpp` (bytes); `AsIntegralType.hpp`, `Byte.hpp`, `IntegerIterator.hpp`, `Range.hpp` (C++ integers) | bytes, or values with the C++ integer type |
| `Verif/Net` | `Os/Network/Ipv4.{hpp,cpp}`, `Streams/SocketUtils.{hpp,cpp}`, socket addresses and `getIpv4` of `SocketFunctions.cpp`, `waitBytes`/`alive`/transfers of `TcpSocketFunctions.cpp`, `UdpServer.cpp` with `UdpSocketFunctions.cpp`, handler and descriptor flags of `Async/Network/EventCatcher.cpp` | characters of the C string, 16-bit arithmetic, bytes of `sockaddr_in`, system answers as parameters |
| `Verif/Os` | status handling of `Posix/Threads/*Functions.cpp`, `Threads/{Mutex,Spin,Semaphore}.cpp` | native outcome and errno as parameters |
| `Verif/Notify`, `Builder` | `Async/Network/EventCatcherBase.cpp`, `ReferenceWrapper.hpp`; `Templates/Builder.hpp` | accesses of the pointer interleaved; members |
| `Verif/Crypto` | `SoftPkcs11/Mechanisms/Base/Mechanism.cpp`, `Crypto/Pkcs11/{Pkcs11,Slot,InitializeArgs}.cpp`, `MutexReal/InitializeArgsCallbacks.cpp`, `Types/Structs/*.cpp`, `Crypto/SoftPkcs11/{Callbacks,GlobalContext}.cpp`, `Functions/*.cpp`, `Interface/*.cpp`, `Callbacks.hpp` | the module's answers are parameters; the module's own initialised flag is tracked; structures as tables of members |
| `Verif/Own` | `Pointers.hpp`, `NetworkBase.cpp`, `TcpServer.cpp`, `UdpServer.cpp`, `Library.cpp`, `Mutex.cpp`, `Spin.cpp`, `Semaphore.cpp`, `Thread.cpp`, `Crypto/SoftPkcs11/Mutex.cpp` | members of the objects + log of acquisitions/releases |
| `Verif/Alloc` | `Allocator/{ObjectAllocator,ArrayAllocator}.hpp` (as owners of memory); strings, lists and vectors when they answer null | heap of blocks, 64-bit sizes, log of constructions and destructions |
| `Verif/Life` | `Variant.hpp`, both `Expected.hpp`, `Optional.hpp`, `Object.hpp`, `InitializerList.hpp`, `RaiiCaller.hpp`, `AlignObject.hpp` | memory slots with live/destroyed values |
| `Verif/Conc` | `Counter.hpp`, `QueuedArray.hpp`, `Registrar.cpp`, `EventCatcher.cpp` (delivery), `Threads/Utils.{hpp,cpp}`, `ConditionVariable` | one shared access or lock call per step, arbitrary schedules |
| `Verif/Stream` | `RamStream.cpp`, `StreamUtils`, POSIX file/pipe readers and writers, `Writer.hpp`, `CommonFunctions.cpp` with `Posix/CommonFunctionsImpl.cpp` (named pipes) | bytes, system calls as parameters |
| `Verif/Win` | `Os/Windows/Threads/{Spin,Mutex,Semaphore,Thread}Functions.cpp`, `Os/Windows/Async/Network/{EventCatcher,MessageDispatchThread}.cpp`, `Streams/Windows/{NamedPipeReader,NamedPipeWriter,NamedPipeStream,PipeStream}.cpp` (handles), `CommonFunctionsImpl.cpp`, `Streams/Windows/{FileStreamReader,FileStreamWriter}.cpp`, `Os/Windows/Network/{SocketFunctions,UdpSocketFunctions,TcpSocketFunctions}.cpp` | one interlocked operation or system call per step; handles and sockets by a log |
| `Verif/Range` | `Range.hpp` (all makers), `Common/Utils.hpp` 422-468 (free `begin`, `end`, …) | memory of arrays, placed / null / unset pointers |
| `Verif/Utils` | `Common/Utils.hpp`, `Bits.hpp`, `CycleInteger.hpp`, `SimpleAlgorithms.hpp`, `Os/Library.cpp` (path), `Traits/{Functional,Defaults,Numbers}.hpp` and `Tuple.hpp` (compile time) | values |
| `Verif/Ubjson` | `Ubjson/{Types,Traits,Value,BaseValue,SimpleTypeValues}.hpp` | tables; a holder of one value |

## What is not modelled

* Windows: libraries (`GetProcAddress` of a null handle), condition variables; the socket system calls themselves; the functions of UBJSON values that do not compile.
* Overload resolution and template instantiation: each model names the overload it is about. Members that cannot be
  instantiated (listed at the definitions, e.g. `List::operator=`, `Object::move<T>`) are left out; so is
  `string + integer`, whose `toString` is not declared where it is used.
* `CircularArray::pushBack` of a range calls a one-argument `countIterations` that does not exist, so no program using it compiles; it is
  nevertheless modelled (`CArr.pushBackRange`) with the evident meaning, and C09 covers it.
* Headers without implemented behaviour: `WideFloat.hpp`, `Trees.hpp`, `ArrayBlocks.hpp`, `Function.hpp` and the allocators of `StaticAllocator.hpp`
  declare only or return null; `Pkcs11/Attribute.hpp` includes a file that does not exist (`Traits/Fuctional.hpp`) and is modelled as written (C194); `ThreadSafeObject` uses an
  undeclared `makeUnique`; `ObjectViewer::clean` needs `sizeof(ContainerTraits::Type)` without `typename`, which cannot be instantiated (were it to compile, it would write
  every second byte and as many beyond the object).
* Weak memory: interleaving models are sequentially consistent. Exceptions: the library throws none; those of element types are treated in C169 only.
* Headers without behaviour of their own: `MaybeMonad`, `Future`, `FunctorBase`, `CallbackIterator`, `BitSet` (empty classes, aliases, or declarations without definition).
* Element types are a parameter with the operations the code uses; where trivial and non-trivial types behave differently
  (memory copies, missing destructor calls) that is a Boolean parameter of the model.

## Findings (each proved)

* Vector: append to a full vector of capacity 1 never returns; `Vector(n)` has 3n/2 elements; assignment between vectors leaves
  the target empty; resize to the capacity does nothing; erasing an inner element leaks one object.
* Array: vector-mode `operator==` compares against the first element only; copy assignment and clone of pure arrays are wrong.
* CircularArray: const iteration starts at the storage instead of the head; destruction counts wrong for copies; clean destroys a local copy twice.
* List: size, iteration, insert, range append, copy and move of an empty list and construction from an empty initializer list are undefined; popping the only element and erasing the last leave dangling links.
* String: appending a character may overflow by one; assignment between strings leaves length 0 or overflows; range insert that does
  not fit recurses for ever; `string + string` drops the right operand.
* HybridVector: insert into a full inline array and insert/iterate on an unset container are undefined.
* Numbers: text of 0..9 overflows the heap buffer; least signed values undefined; wide integers zero-extend signed values; `~` changes
  its operand; compound operators do nothing; constants BIT64_61/BIT64_63 exchanged; cyclic shift by multiples of the width undefined.
* Integer wrappers: `>=`/`<=` of AsIntegralType are `>`/`<`; for mixed widths `==` and `!=` can both hold; dividing by a multiple of
  2^width divides by zero; products of 16-bit values overflow `int`; byte shifts by 32 or more are undefined; differences of 32-bit
  unsigned iterators are never negative.
* IPv4: the middle zero of 100..109 and 200..209 is dropped; fewer than four components and octets modulo 65536 accepted; an empty component reads through null.
* Ownership: SharedPointer destroys when the second-to-last owner goes and leaks the last; a moved-from socket's destructor closes
  descriptor 0; assignments leak sockets, libraries, semaphores; a moved-from Library's destructor dereferences null; the PKCS#11 mutex
  never calls the unlock callback; lock objects equal to their initializer are never destroyed.
* Values: see C31-C35 (copies of a non-const Variant move it, assigning empty to filled Optional is ignored, Expected leaks or destroys twice).
* Concurrency: signal delivery can deadlock on the queue's own spin lock; concurrent `add` loses events; UniqueLocker moves lose or
  double-release the lock; ConditionVariable notify may never return with two waiters, and one notify may free the lock for good.
* Streams: splitting a non-wrapping range covers the whole buffer in addition; file reads report -1 or one byte too few; `Writer::flush`
  writes nothing; descriptor leaks on move assignment; named pipes never closed.
* Utilities: range equality accepts prefixes; `alignedPointer` overflows at the middle and wraps to null at the end of the address space.
* Threads: joining by hand and then destroying, detaching, move construction, and destroying after a failed start are undefined; running
  twice or assigning over loses the first thread; pthread failures are reported as stale errno (as success when errno is 0).
* Sockets: addresses with an octet 100..109 or 200..209 reach another host; reading an address back is wrong unless all but the first
  octet are 0, so reconnecting to 127.0.0.1 asks for 127.256.0.0; `waitBytes` waits for exact equality; a broken connection counts as
  alive; probing makes non-blocking descriptors blocking; a UDP reply before any reception dereferences null.
* Notifications: data arriving while a signal is pending is dropped, further connections starve; disabling a descriptor clears an
  `O_NONBLOCK` set before enabling; a failed enable is not undone.
* PKCS#11: an uninitialised library answers with nothing or zero slots, never with an error; the slot list is always empty; asking for the
  interface list destroys it; `finalize()` followed by destruction finalises twice; a failing `C_GetInfo` leaves the module initialised.
* PKCS#11 objects: waiting for a slot event turns the object into another slot; on an uninitialised library it returns OK; self-moved
  initialisation arguments are lost; native lock failures are reported as OK.
* Soft token: no initialised state, `C_GetFunctionList(NULL)` dereferences null (missing `return`), an empty interface array is overrun.
* Structures: copies of `NistSp800Hyphen108KdfParams` lose `prfType`, copies of `FunctionList3` lose `C_MessageDecryptInit`; 67 of 86
  default constructors leave all members indeterminate.
* Allocation: array sizes wrap modulo 2^64, so a block is smaller than asked for; `destroy(nullptr)` and rvalue arguments of arrays.
* Lifetimes: an `InitializerList` destroys its elements twice; copies of a `RaiiCaller` run the final call again; `AlignObject` never
  destroys what was constructed in it.
* Compile time: `IsUniqueParameterPack` accepts almost every pack with repetitions; const tuples give access to their first member only.
* Named pipes: making both ends waits forever when the reader's end cannot be opened; the end that was not asked for is reported as
  descriptor 0 with success, and destroying such a pipe closes descriptor 0; the reader's end is never closed.
* Windows locks: `Spin::lock` returns exactly when it finds the lock taken, so any number of threads hold it at once; `tryLock` is not
  atomic; anybody may unlock anybody's mutex; semaphores cannot start at 0 or be posted above their initial value, and `value()` drifts.
* Windows threads: move construction reads an uninitialised context; running twice leaks the first handle; detaching or moving leaves
  the thread working on an object that may be destroyed.
* Windows events: CONNECT and CLOSE are never asked for (a function pointer is tested instead of called); errors are dropped silently;
  if the window cannot be created, destroying the event catcher hangs.
* Windows pipes: making both ends of a named pipe fails if the second thread is fast and hangs if it is faster; pipe objects close
  handles they were only lent; the status of an unnamed pipe is inverted, and its constructor reads a flag that was never written.
* Windows sockets: a server that cannot be bound leaks its socket; UDP datagrams longer than the buffer are lost and a reply afterwards
  is undefined or goes to the wrong peer; probing an idle TCP connection blocks; ranges of 2^32 bytes read as end of stream.
* Windows file streams: destroying a default constructed stream reads a flag that was never written; lengths are taken modulo 2^32.
* Stream socket addresses: every text gives 0.0.0.0, dotted texts are refused and texts with three colons accepted; the text of an
  address is always empty; an `Ipv6` made from a text is never initialised.
* Circular vectors: no history puts an element into one; copies have no room; an empty one reports capacity 2^64-1; assignments have no
  `return`.
* The soft token: 87 of its 92 functions answer OK without doing anything, so every signature verifies, every PIN is accepted, and
  sessions, keys and random bytes are never written.
* Backward traversal of Array, Vector, HybridVector and String forms the pointer before the first element (`rend()`), which the language does not allow; the order is right on flat addresses (C128).
* PKCS#11 enumerations: `InterfaceFlags::NONE`, `FunctionListFlags::NULL_VALUE` and `WaitForSlotEventFlags::DO_BLOCK` are zero, so tests for them say nothing (C129); one enumerator is misspelt (`Mechanism::E2B_256_HMAC_GENERAL` for CKM_BLAKE2B_256_HMAC_GENERAL).
* HybridVector: `a = b` with `b` empty (no storage) leaves `a` as it was (C131); the `operator=` overloads taking `Array`/`Vector` return nothing.
* HybridVector: range-for over a container that never had elements, or lost its last one through `erase`, dereferences a null pointer: unset iterators are unequal to themselves (C132). `ConstIterator(ConstArrayIterator)` names an undeclared `vWrappedIterator`.
- **C133, network status.** A recorded failure is never cleared by a later successful transfer; `UdpClient` never clears it at all. `operator bool` of `NetworkBase` is `descriptor valid || status >= 0`, so a successfully disconnected client, and one whose socket could not be made, convert to `true`; the check in the constructor can therefore never fail.
- **C18, String assignment.** Assigning any string to one without storage (default constructed or moved from) writes the terminator one past the new allocation, or through null: `reserve(length difference)` forgets the terminator. `C18_grow_violated` settles the remaining case, so the outcome of every assignment is known.
- **C20, String operators.** `+=` with a number or a range and `-=` with a range are empty functions.
- **C134, notifications.** `notify` reads an unprotected pointer twice. Unsetting in between dereferences null; a notificator may still be entered after `unsetNotificator` returned, and nothing tells the program when it may be destroyed.
- **C135, mechanisms.** The base class has public implicit copy operations which copy the callbacks of a derived class into objects of other classes.
- **C136, builder steps.** `operator bool` of `Substep` is `SUCCESS_VALUE != error`: true after failure. The error of a fresh substep is indeterminate; the constructor with arguments calls the derived class before it exists.
- **C55, C137, own elements.** `insert(it, v[i])` reads its argument after shifting: from behind the position it inserts the element before the one named. Inserting an own range that straddles the position repeats its first part; behind the position it takes elements that have moved. Whatever reallocates reads freed memory. (The model distinguishes types whose moved-from value stays, such as integers, from others: `keep`.)
- **C138, own characters.** `s = s.data()` and `s = move(s)` leave an empty string; `s += s.data()` without room for it and `s.insert(it, s[i])` without room read freed storage; inserting a character or range from behind the position inserts what the shift put there.
- **C140, own elements of a HybridVector.** `h.pushBack(h[i])` and `h.insert(it, h[i])` on a full inline array, and inserting an own range that exactly fills it, destroy the array before reading the argument.
- **C20, mutable C strings.** `s += buffer` with `char buffer[N]` or `char *` selects the unimplemented template `operator+=(IntType)` and does nothing.
- **C141, arguments passed by name.** `HybridVector::emplaceBack`/`emplace` and `CircularArray::emplaceBack` call `forward(args)...` without a template argument, which turns a name into an rvalue; `Variant::set`, `Variant(x)` and `Object(x)` take forwarding references and `move` them. All of them empty the caller's variable. A full `CircularArray` empties it without storing anything. `Variant::set` of a const rvalue stores nothing.
- **C142, copies of pointers.** `SharedPointer<int> q(p)` with an ordinary `p` makes a new `int` of value 1 instead of sharing; `UniquePointer<int> q(p)` compiles, although its copy constructor is deleted, and does the same. (For class types such copies do not compile; the repository's copying test is commented out.)
- **C143, type traits.** `RemoveAllTrait` is ambiguous for `const volatile` types. `AddVolatileTrait<T>` is `T *volatile`. `IsSigned<const int>` and `IsUnsigned<const int>` are both false and `MakeUnsigned<const int>` is `const int`; `char` likewise; `long long` on LP64 (and `long` on Windows) is refused everywhere, so `it + 1LL` does not compile. Because `Variant::get<T>` and `InitializerList` strip pointers from `T`, neither can be used with pointers (`Variant<int *>` can be filled by `set` but not read).
- **C144, testing a shared pointer.** `SharedPointer::operator bool` is `&members->object`: undefined for a null or dangling pointer, and in practice true for null. It cannot guard anything.
- **C145, comparisons.** `Optional`, `SharedPointer`, `UniquePointer`, `Ipv4` (and other classes with an implicit `operator bool` and no `==`) compare as truth values: any two filled optionals, any two owning pointers, any two valid addresses are equal; `Optional<int>{5} == 5` is false. `AcceptedConnection` has `==` but `!=` goes through `bool`, so two different valid connections are neither equal nor unequal.
- **C146, handlers that assign.** `flame_ide::Expected::ifResult`/`ifError` set the state to UNKNOWN after the handler returns: whatever the handler stored in the object (a retry, say) is dropped without being destroyed. `templates::Expected` is right.
- **C147, semaphores and signals.** `Semaphore::wait` returns when `sem_wait` was interrupted (`EINTR`) and neither locker looks at the status: the thread enters without a permit and posts one when it leaves, so the semaphore grows for good. (The library's own signal handler, EventCatcher.cpp 87, is installed with `SA_RESTART` and does not interrupt `sem_wait`; any handler of the application installed without that flag does.)
- **C148, registration.** Data that is in the socket before `add` has finished is never reported until more arrives; between `F_SETOWN` and `F_SETSIG` the signal comes without a descriptor and is attributed to descriptor 0. A client that sends at once after connecting is the ordinary case.
- **C149, accepted connections.** The handler accepts first and then finds the queue full: the descriptor is dropped, open. `Registrar::clear` drops the connections that wait in the same way.
- **C150, sending.** `::send` is called without MSG_NOSIGNAL and nothing in the library changes SIGPIPE: sending to a peer that has gone ends a process that left the signal at its default instead of returning −1. A partial `send` leaves the status at success; the caller must look at the value returned.
- **C151, thread objects.** `~ThreadBase` joins after the derived class is already destroyed, so a thread still starting or running makes its virtual call (possibly a pure one) on a partly destroyed object; calling `join()` first is no way out, because the destructor then joins a second time. `isWorking` cannot be used to wait on systems where `pthread_kill` answers 0 for an ended thread.
- **C152, errno.** `signalHandler` makes system calls and does not save `errno`; a failure inside it (for example the ENOTSOCK of C148's descriptor 0) replaces the code the interrupted call is about to report.
- **C153, stale events.** `Registrar::remove` only disables the descriptor: queued events and the waiting signal stay, so a removed socket is still popped. Events are numbers; after `close` and a new socket with the same number they are taken for events of the new one, and a waiting signal is filed under the new one's kind – through a null pointer when nothing of that kind was ever added.
- **C154, the Windows catcher.** `MessageDispatchThread::wait` spins on a flag that only the thread sets, and nobody looks at the status of `run()`: if CreateThread fails the first use of a registrar hangs. If the window cannot be made, the destructor returns early without posting FINISH and `~ThreadBase` then waits forever for a thread that waits in GetMessage: the process does not end.
- **C155, the signal.** If `makeSigAction` fails the constructor returns with `status` still success: registering succeeds without a handler (SIGPOLL then ends the process) and the destructor installs the zeroed `oldAction`, i.e. the default. The destructor restores the disposition without disabling the registered sockets: data arriving between it and the end of the process kills the process. It also overwrites a handler the program installed in the meantime.
- **C156, conditions and destruction.** `wait(functor)` is a do-while: a condition that is already true (or was notified before) still blocks until the next notification. `unwait` without waiters wraps the 8-bit counter to 255 (`isWait` is true, the next `wait` returns at once); with a waiter it makes `notify` ignore that waiter. The destructor calls `notify` once: with two or more waiters it spins forever or leaves a waiter that writes to the destroyed object.
- **C157, the owner.** `notify` and `tryWait` unlock the mutex from the calling thread whoever locked it: undefined for a POSIX mutex, refused by `ReleaseMutex`. And a woken thread that waits again before `notify` has taken the lock back passes without being notified, after which `notify` returns without the lock (the shared `UniqueLocker` flag says locked), so every later wait passes as well (C41).
- **C158, the status of a pipe.** The status is written only if a transfer returns −1: a circular transfer whose system call fails returns −2 and leaves success; a circular read that ends at the beginning of the memory takes its bytes and leaves failure; an empty range leaves failure. The move constructor does not initialise the status; move assignment sets success whatever the source reported, and the source keeps success without descriptors.
- **C159, special members.** `NonCopy` also prohibits moving and `NonMove` copying: the three prohibitions are one. `NonDefault` is an aggregate in C++14, so `NonDefault{}` makes one. `UniqueLocker`, `RaiiCaller`, `InitializerList` and `AlignedObject` release something and can be copied; moving a `RaiiCaller` copies it. `ThreadCrtp` declares a destructor and so loses the moves that `ThreadBase` defines: no class derived from it can be moved unless it writes its own moves.
- **C160, Winsock.** `WinSockLibrary::init` tests and sets `inited` without a lock: `n` threads making their first socket together start Winsock `n` times, and it is ended once. The library's static object is constructed by the first socket call, so a static object constructed before it and given a socket later closes that socket after WSACleanup, where closesocket fails. `destroy` leaves `inited` set and nothing ever reads `wsaStatus`.
- **C161, symbols.** `Library::find` does not ask whether a library is loaded: on POSIX the null handle means the default search, so a default constructed `Library`, or one whose library was not found, finds every symbol of the program itself. Move assignment over a loaded object keeps the former library mapped for ever.
- **C162, UBJSON.** `ValueTraits` says `DATA_PAYLOAD` for `TRUE` and `FALSE`, which the format writes as a marker alone. `ENUMERATED_TYPE_COUNT` is `OBJECT + 2`, one more than there are types. Both `BaseValue::operator=(value)` end without `return`: every use is undefined. `TraitValues::getType` and `getTypeClose` convert between unrelated enumerations and do not compile when used.
- **C163, named pipe files.** Moves of `NamedPipeWriter` do not move the name and `open` does not set it: the moved writer calls `remove(nullptr)`, and after assignment or `open` the object removes the file it was made for, even one that was to be kept. A writer that failed to open removes the file of that name. `setName` adds a `String` to the prefix, which appends nothing (C20): the name is always `/tmp/`, and that directory is what a stream tries to remove; a stream's pipe is never removed. `NamedPipeReader::getName` has the prefix, though the pipe opened has not. `NamedPipeStream::open` always reports success.
- **C69, C117, C120, Windows threads: reused numbers.** Closing (or disconnecting, or waiting for) a descriptor whose resource is gone is recorded as hitting something foreign, because the system reuses numbers; the positive theorems hold for that stricter reading. On Windows every destruction of an open `NamedPipeStream` disconnects a handle it has just closed.
- **C164, no memory.** Only `Vector::reserve` tests what the allocator answers (and then `pushBack` recurses for ever, C02). A string whose `resize` gets null keeps its length, claims the new capacity, has lost its characters and leaked their block, and cannot even be destroyed. Constructing strings, vectors and list nodes writes through null; `Vector(n)` returns a vector that claims elements it does not have.
- **C165, PKCS#11 lifetime.** Because the counter of a `SharedPointer` starts at 0, a module is finalised exactly when the second-last reference goes, never with the last: `{ auto l = slot->getLibrary(); }` finalises the module under the slot (`C165_look_violated`), and dropping the only pointer to a slot leaks slot and library (`C165_slot_dropped`). `Slot::create(library, id)` with a named non-const pointer does not compile.
- **C166, registering without memory.** `Registrar::add` ignores that `init` failed and reports success; the first event then writes through a null iterator inside the signal handler (`C166_event_violated`).
- **C167, elements with their own address.** `Vector::reserve` uses `realloc` on objects of any class; a `Vector` of fixed-capacity vectors, hybrid vectors, circular arrays or lists is broken by its first move (`C167_static_violated`, `C167_circular_violated`, `C167_list_violated`).
- **C168, reserved room.** `String::reserve(n)` on a string without storage allocates exactly `n` characters (String.hpp 552-561), but `pushBack(const &)` only tests `length() < capacity()`: the n-th character writes its terminator behind the block. `pushBack(PointerToConst)` (String.hpp 598) demands two characters more than it needs, so a text of the size just reserved is reallocated once more and, with no memory left, written through a null pointer.
- **C169, An exception in the middle of Vector::insert leaks objects and hides the last element.** `insert` constructs behind `tail` before moving and advances `tail` only at the end (Vector.hpp 755-764, 821-838; Array.hpp likewise): an exception from an element's move or assignment leaves those objects undestroyed and a moved-from object among the elements (C169_insert_exact). Constructors that throw end the program because `emplaceNew`/`placementNew` are `noexcept`. `List::insert` of a range leaks the nodes built before the exception (C169_list_range_leaks).
- **C170, Inserting into a List walks the whole list.** `List::insert` and `emplace` start with `if (!size())` (List.hpp 726, 756, 811, 847), and `size()` counts the nodes (511-518): building a list of n elements by insertion takes a quadratic number of steps (C170_list_insert_violated).
- **C171, Vector::reserve does not check the multiplication.** `reserve(2^61 + 1)` of 8-byte elements obtains 8 bytes and reports a capacity of 2^61 + 1 (C171_reserve_violated); `reserve(2^61)` on a vector with a block releases it twice (C171_zero_ub); `Vector(6148914691236517206)` makes one element (C171_ctor_violated).
- **C172, A UDP client cannot tell its server from anybody else.** `receiveClient` stores the source of the datagram in a local variable nobody reads and the socket is never connected: any host's datagram is handed over like a reply. A datagram longer than the range is cut silently.
- **C173, The event queues and the condition variable's counter are unprotected on Windows.** They rely on `threads::Spin`, whose Windows `lock` returns as soon as it finds the lock taken (C111): n threads incrementing a counter may leave 1 (C173_counter_violated), two pushes may lose an event although both return true (C173_queue_violated).
- **C174, Data races.** `UniqueLocker::unlock` and `lock` write `locked` outside the lock's protection (Utils.cpp 186-205), and all users of a ConditionVariable share one UniqueLocker; `EventCatcherBase::notificationObject` and the Winsock flag `inited` are plain variables accessed by several threads. The behaviour of such programs is undefined in the language (C174).
- **C175, UBJSON values in allocated memory share and leak.** A copy of `BaseValue<…, true>` denotes the same object, so writing one changes the other (`C175_copy_shares_violated`). As the counter of `SharedPointer` starts at 0, destroying one of two holders destroys the value of the other (`C175_drop_copy_violated`), and the value of a holder never copied is never given back (`C175_leak_violated`). `BaseValue v;` cannot be destroyed (`C175_default_ub`).
- **C176, locking callbacks that do not lock.** `Crypto.Pkcs11.NoThread` is linked with callbacks that return `OK` and do nothing, yet `InitializeArgs()` offers them to the module with `OS_LOCKING_OK`: any number of threads can be in a guarded section together (`C176_stub_violated`). The real callbacks hide native failures, with the same effect (`C176_failed_lock_violated`) or a section nobody enters again (`C176_failed_unlock_violated`).
- **C56, Vector::emplace leaks.** `Vector::emplace` before an existing element constructs over the moved-from element without destroying it (Vector.hpp 868; Array.hpp 923 does destroy it): one object is lost per call (`C56_emplace_violated`, `C56_exact`). An earlier note on C56 counted only the objects left alive in the storage and missed this.
- **C177, inner erase leaks in every vector.** `erase(it)` of an inner element never destroys an object in `Array` and `HybridVector` either (`C177_array_exact`, `C177_erase_violated`); switching the storage of a HybridVector is balanced (`C177_exact`).
- **C178, HybridVector without memory.** A call that needs memory and is refused it recurses for ever (Vector::pushBack 698-711 calls itself after a reserve that changed nothing), with the elements still in the object. A range that fills the inline places exactly leaves for the heap (line 1855 uses < where <= would do).
- **C179, Self assignment.** Only Variant (so HybridVector) and Array compare the addresses. A socket moved onto itself is left with descriptor 0, the standard input, and its connection is never closed; a SharedPointer with exactly two owners is undefined when copied onto itself.
- **C180, Stale capacity of a moved-from Vector.** Vector.hpp 429-437 nulls head and tail of the source but leaves vectorCapacity: pushBack on a moved-from vector writes through a null pointer, unless a reserve beyond the old capacity came first.
- **C181, A queue made of a List breaks when it runs empty.** popFront of the only element leaves tail pointing to the destroyed node, popBack leaves head so (List.hpp 873-901): a queue (pushBack, popFront) is undefined at the first push after it ran empty, a stack at the back (pushBack, popBack) can never be destroyed once it was empty; only a stack at the front works (C181).
- **C182, Over-aligned elements.** Memory for Vector, String and List comes from plain malloc, so elements of a type aligned more strictly than 16 may all be misaligned (`C182_block_violated`); `AlignedObject<T, ALIGN>` accepts an `ALIGN` weaker than `alignof(T)` (`C182_alignedObject_exact`).
- **C183, several libraries.** (a) `find` with the null handle of a library that failed to load is `dlsym(RTLD_DEFAULT, ...)`: if the program itself offers `C_GetFunctionList`, `initialize` returns OK for another module than the one named. (b) `finalize` does not reset `status`; the destructor then finalises the module a second time, under whichever object has initialised it since. (c) when `C_GetInfo` fails after `C_Initialize`, nothing finalises the module: every later `initialize`, of any object, returns CRYPTOKI_ALREADY_INITIALIZED until the module is unmapped.
- **C184, static objects.** `Registrar` and `Pkcs11Library` do not touch the library's static objects when they are constructed; a static object of the program that first uses them in `main` and withdraws sockets (or calls `C_Finalize` of the soft token) in its destructor uses an object that has been destroyed before.
- **C185, A wide string believes in capacities it does not have.** String.hpp 541, 552 and ArrayAllocator.hpp 122, 133 multiply the number of characters by sizeof in 64 bits without a check. For characters of two or more bytes resize(2^62+1) (4 bytes) shrinks the block to one character while capacity() reports 2^62+1; resize(2^62) releases the block and leaves a null head with a capacity, so that the destructor (clean, 431-441) writes through null. reserve(n) with capacity()+n beyond 2^64 does nothing (C185).
- **C186, No function tells that memory ran out.** Library.cpp 29-30 and 124 write through null, Pkcs11.cpp 192-193 recurses without end, 275-278 asks the module with a null list and reports OK, RamStream.cpp 53 recurses without end (C186).
- **C187, comparing iterators.** `BaseIterator` has an implicit `operator bool` and its `==`, `!=` (and most of `<`, `<=`, `>=`) are not const members. With a const left operand, or with operands of two types (`v.cbegin() == v.end()`), the comparison is of truth values: any two iterators are equal. `<` and `-` of list iterators compile the same way and are always false and 0.
- **C188, reading through iterators.** A random access `Iterator` declares two `operator[]` that differ in the result type only: every call is ambiguous, and over `const T *` the class cannot be instantiated. `ReverseIterator<ConstIterator<…>>` cannot be dereferenced unless it is const. `ConstReverseIterator<T *>::operator[]` returns a writable reference; `vector.crbegin()[n]` does not compile.
- **C189, Several library objects share one module.** `finalize()` does not change `status` (Pkcs11.cpp 72-88), so an object finalised by hand finalises the module again in its destructor, taking it away from another object that has initialised it since. After a failing `C_GetInfo` the module stays initialised with no owner: every other object is refused and the module is unloaded initialised.
- **C190, Erasing around the inline capacity switches the storage back and forth.** `HybridVector::erase` returns to the array as soon as the vector holds fewer than N elements (HybridVector.hpp 1947-1950), without leaving room: the next push but one goes to the heap again. push, erase last, erase last, push, repeated, asks the allocator once and carries 2N-1 elements per round (C190_erase_violated); with popBack in place of erase nothing is carried after the first round (C190_pop_rounds).
- **C191, file streams do not seek.** A reader made from the descriptor a writer uses is always at the end of the file and never receives what was written; two writers that opened the file separately overwrite each other although both report success.
- **C192.** A receiver that deserialises what one `receive` returned reads beyond its buffer unless the message is complete; a sender that checks only the status of a short `send` makes the receiver read other numbers.
- **C193.** `Range()` leaves its two pointers without values: a loop over a default range is undefined, not empty. `makeReverseRange` and `makeConstReverseRange` (Range.hpp 175-191) return a `Range<ConstIterator>` where a `Range<ReverseIterator>` is declared and compile for no container of the library; nothing calls them.
- **C51.** CycleInteger.hpp cannot be included: it asserts `IsIntegralType`, which no header declares (AsIntegralType.hpp asserts `IsIntegralTrait`), all members of the class are private, and `operator>>=(Me)`, `operator<<=(Me)` return a temporary by reference. The C51 theorems are about the bodies of the shift operators as written.
- **C194.** `wrapper::Attribute` (Pkcs11/Attribute.hpp 1301-1323) asserts that the value type is `void` where it must not be, and has a member of that type: it compiles for no attribute. 84 of the 106 attributes have `void` as their value type anyway.
- **C195, A Vector of Strings.** `Vector<String>::insert(it, s)` in front of an element is always undefined: the opened cell holds a string without storage and String's copy assignment writes past the storage it makes for one. `insert(it, move(s))` works unless the vector is full, when the retry passes `s` as an lvalue (Vector.hpp 802). `erase(b, e)` of an inner range destroys the strings and then move-assigns to them, a second release of their storage. `emplace`, appending and `erase(it)` are right.
- **C196, An Array of Strings.** As C195: copy insertion in front of an element and erasing an inner range are undefined for `Array<String, N>`. Moving from an array leaves it its size, with empty strings in it.
- **C197.** MessageDispatchThread.cpp 17, 122, 130: the window class "AsyncSelect" is registered for module `nullptr`, that is once per process: a second copy of the library in the process (a DLL linked with it) gets no window, refuses every socket, and its thread waits for ever (C154). 153-159: `destroyWindow` unregisters the class by name even if this thread did not register it, and leaves `window.handle` set.
- **C198, A HybridVector of Strings.** The change between the built-in array and the heap vector loses no string. As in C195 and C196, `insert(it, const String &)` in front of an element and erasing an inner range are undefined. `insert` at the *end* of a full built-in array is undefined too, by copy or by move (the new iterator is `begin() - pos`), while `pushBack` and `emplace` there are right; `insert(it, move(s))` works in a full array only at position 0.
- **C199, strings in small holders.** `optional = s` on a filled `Optional<String>` goes through String's copy assignment, so it loses the text or writes out of bounds unless the text is empty (`C199_optional_copy_exact`); assigning an empty `Optional` keeps the old value. Copying a `StaticArray<String, N>` and `InitializerList<String, N>` with a named argument are undefined for every text: they copy-assign to default constructed strings. `StaticArray`'s copy assignment forgets `++it` and writes every source object into the first place (`C199_array_assign_exact`).
- **C200, moving into a list.** `pushBack(T &&)`, `pushFront(T &&)` and `insert(it, T &&)` of `List` pass a named reference on and `Node(MoveReference)` initialises its member by `object(object)`: strings given away are copied and keep their text and storage (`C200_move_copies`); a range insertion and a copy of a list copy every string twice. The copy assignment of a `List` cannot be instantiated.
- **C201, moved-from ring.** The move constructor of `CircularArray` moves the elements one by one and leaves `head` and `tail` of the source alone: a moved-from array of n strings still has size n, all of them empty (`C201_move_source`); the new one is destroyed twice over (`C201_made_destroyed_twice`). Handing a string to a full array leaves the string alone (`C201_push_move`), so nothing is lost there.
- **C202, nested vectors.** `Vector<Vector<T>>` can be filled and read, but the same-type assignment operators are declared without a definition (Vector.hpp 132, 147), so `insert` and `erase` do not link for it. `pushBack(w)` stores a copy whose capacity is its size: if `w` has one element, `vv[i].pushBack(x)` on the stored copy never returns, whatever `w`'s own capacity was (`C202_append_to_stored_copy`). `vv.pushBack(vv[i])` on a full outer vector reads a dangling reference, and a vector moved in keeps its old `vectorCapacity` without storage, so appending to it is undefined (`C202_given_away`).
- **C203, vectors of unique pointers.** `erase(itBegin, itEnd)` destroys the pointers first and then move-assigns the rest to the destroyed ones, so erasing any range that is neither empty nor the end is undefined (`C203_erase_range_ub`); `insert(it, T &&)` falls back to `insert(it, const T &)` (Vector.hpp 802) and therefore does not compile for move-only elements. Everything else destroys every object exactly once (`C203_destroyed_once_partial`).
- **C204, fixed arrays of unique pointers.** `insert(it, &&)` and `emplace` in front of an element default construct a `UniquePointer` behind the last one (Array.hpp 845, 916), and a default constructed `UniquePointer` constructs an object (Pointers.hpp 463-468). So such a call makes one object nobody asked for, and destroys it in the first move assignment of the shift (`C204_extra_object`). Erasing a range that is not the end is undefined, as in C203. Everything else destroys every object exactly once.
- **C195 and C198, `Vector::insert(it, &&)` does not compile.** Vector.hpp 785 calls `placementNew<Type>(tail)` with one argument; both overloads of `placementNew` (Utils.hpp 68-76) take two. So `insert(it, T &&)` of `Vector` and of `HybridVector` cannot be instantiated for any element type, and `vector.insert(it, T(...))` is an error. The repository's tests only insert lvalues. The models read the line as `emplaceNew<Type>(tail)`, as in `insert(it, const &)` (755). Likewise `Vector::emplace(it, args...)` (868) compiles for exactly one argument only.
- **C205, circular arrays of unique pointers.** Every history on a fresh array is right, the destructor included (`C205_destroyed_once`). An array made by the move constructor from one in which something waits has its pointers destroyed twice (`C205_moved_ub`; the cause is that of C60). `clean` copies each element into its loop variable (CircularArray.hpp 348) and so does not compile for unique pointers. A `List` of unique pointers does not compile either: the node's constructor from `T &&` (List.hpp 350-352) passes its argument on as an lvalue.
- **C206, hybrid vectors of unique pointers.** Both changes of storage carry every pointer and destroy only nulls (`C206_destroyed_once_partial`). Erasing a range that is neither empty nor the end is undefined in either storage, as in C203 and C204. `emplaceBack(args...)` with an argument does not compile (HybridVector.hpp 1736: `forward(args)` without a template argument).
- **C207, a Vector of SharedPointers (Pointers.hpp 296-298, 330-336, 427-435).** The counter of a new object is 0. `vec.pushBack(p)` followed by the end of `p` destroys the object the vector points at; copying an element out and dropping the copy does the same, and passing the vector by value does it to every object in it (`C207_by_value_destroys`); a pointer moved in and then removed never destroys its object.
